/-
Property C84: from the admin program through the start script to the answers of the nodes.
-/
import Verif.Model.Admin
import Verif.Proofs.Bootstrap
import Verif.Props.OnStart

namespace TG
open TG.Service
variable [LawfulEnv]

variable {peers : List PublicKey}

/-- A made trust verifies until it expires. -/
theorem Spec.made_verify (kp : KeyPair) (hk : kp.pub.NotRsa) (pk : PublicKey) (e i : UInt64) {now : UInt64} (h : now ≤ e) :
    (Spec.made kp pk e i).verify kp.pub (.ofSecs now) = .ok () := by
  obtain ⟨sg, hsg⟩ := kp.sign_ok _ (kp.canSign_of_notRsa hk (Trust.signatureBytes pk (.ofSecs e) (.ofSecs i)))
  rw [C38_verify_decides]
  constructor
  · have := UInt64.le_iff_toNat_le.mp h
    show now.toNat * 1000000000 + 0 ≤ e.toNat * 1000000000 + 0
    omega
  · show kp.pub.verify (Trust.signatureBytes pk (.ofSecs e) (.ofSecs i)) (Signature.fromBytes pk.keyFormat _) = .ok ()
    rw [hsg, C43_relabel]
    exact C41_genuine_accepted _ _ _ (C42_sign_genuine _ _ _ hsg)

theorem issueTrustHelper_eq (node : Node) (kp : KeyPair) (hk : kp.pub.NotRsa) (pk : PublicKey) (hp : pk.NotRsa) (e i : UInt64) (db : Db) :
    Admin.issueTrustHelper node kp pk.toPeerId.toBase58 e i db = (.ok (Dto.ofTrust (Spec.made kp pk e i)), db) := by
  obtain ⟨sg, hsg⟩ := kp.sign_ok _ (kp.canSign_of_notRsa hk (Trust.signatureBytes pk (.ofSecs e) (.ofSecs i)))
  have h : Service.issueTrust (node.call []) pk.toPeerId.toBase58 e i sg.raw db
      = (.ok ⟨true, none, Dto.ofTrust (Spec.made kp pk e i)⟩, db) := by
    unfold Service.issueTrust
    rw [into_lift_ok (extractPublicKey_toPeerId pk hp)]
    unfold Spec.made
    rw [hsg]
    rfl
  unfold Admin.issueTrustHelper
  rw [M.bind_run_ok (getTrustBytes_eq _ pk hp e i db)]
  dsimp only
  rw [hsg]
  dsimp only
  rw [M.bind_run_ok h]
  rfl

/-- The admin program makes these certificates, and changes nothing on the node it uses. -/
theorem admin_certificates (hw : Env.wasm = true) (adm : Node) (root label ex : KeyPair) (peers : List PublicKey) (db : Db) :
    Admin.certificates adm root label ex (peers.map fun p => p.toPeerId.toBase58) db =
      (.ok ((Spec.bootCerts root label ex peers (adm.now + 63072000) adm.now).map Dto.ofCertificate), db) := by
  have hp := C60_wasm_keys hw
  have hrest : Admin.nodeCerts adm label (Dto.ofTrust (Spec.made root root.pub (adm.now + 63072000) adm.now))
      (Dto.ofTrust (Spec.made root label.pub (adm.now + 63072000) adm.now)) (adm.now + 63072000) adm.now
      (peers.map fun p => p.toPeerId.toBase58) db =
      (.ok (peers.map fun p => Dto.ofCertificate ⟨[Spec.made root root.pub (adm.now + 63072000) adm.now,
        Spec.made root label.pub (adm.now + 63072000) adm.now, Spec.made label p (adm.now + 63072000) adm.now]⟩), db) := by
    induction peers with
    | nil => rfl
    | cons p ps ih =>
      show Admin.nodeCerts adm label _ _ _ _ (p.toPeerId.toBase58 :: ps.map fun p => p.toPeerId.toBase58) db = _
      unfold Admin.nodeCerts
      rw [M.bind_run_ok (issueTrustHelper_eq adm label (hp _) p (hp _) _ _ db), M.bind_run_ok ih]
      rfl
  unfold Admin.certificates
  rw [show (60 : UInt64) * 60 * 24 * 365 * 2 = 63072000 from rfl,
    M.bind_run_ok (issueTrustHelper_eq adm root (hp _) root.pub (hp _) _ _ db),
    M.bind_run_ok (issueTrustHelper_eq adm root (hp _) label.pub (hp _) _ _ db),
    M.bind_run_ok (issueTrustHelper_eq adm root (hp _) ex.pub (hp _) _ _ db), M.bind_run_ok hrest]
  unfold Spec.bootCerts Spec.startCerts
  rw [List.map_cons, List.map_map]
  rfl

omit [LawfulEnv] in
theorem Db.addRoot_rootFactor [Env] (pk k : PublicKey) (wf : Nat) :
    (Db.empty.addRoot pk wf).rootFactor k = if k = pk then some wf else none := by
  unfold Db.rootFactor Db.addRoot Db.empty
  by_cases h : k = pk
  · subst h; simp
  · rw [if_neg h]
    have : ¬ keyText pk = keyText k := fun h' => h (keyText_inj h').symm
    simp [this]

/-- A weight from the candidates. -/
theorem Db.weight_eq {d : Db} (hh : d.Healthy) (hf : d.NoFaults) (hn : d.relations.length + 16 < 2 ^ 32) (pk : PublicKey) (now : Dur) {w : Nat}
    (h : IsGreatest (Spec.weights d pk now) w) : ∃ s, TrustGraph.weight pk now d = (.ok w, s) := by
  obtain ⟨w', h1, h2⟩ := Db.weight_spec hh hf hn pk now
  rw [h2.unique h] at h1
  exact ⟨_, h1⟩

/-- `isFluencePeer` when no statement fails. -/
theorem isFluencePeer_noFaults (hw : Env.wasm = true) {root label : PublicKey} (hr : root.toPeerId.toBase58 = Aqua.fluenceRootPeerId)
    (hl : label.toPeerId.toBase58 = Aqua.labelPeerId) {d : Db} (hd : Reachable d) (hf : d.NoFaults) (host : PublicKey) (init creator : Str)
    (now : UInt64) : ∃ b, (Aqua.isFluencePeer host.toPeerId.toBase58 init creator now d).1 = .ok (some b, none) ∧
      (b = true ↔ Spec.Labelled (d.snapshot (.ofSecs now)) root label host) := by
  rcases C65_is_fluence_peer hw hr hl (host := host) hd init creator now with h | h
  · exfalso
    have hq := (C75_certificate_queries (Aqua.hostCall host.toPeerId.toBase58 init creator) host label (C60_wasm_keys hw _) (C60_wasm_keys hw _)
      now d).2.2.2 ⟨[], rfl⟩ rfl
    rw [Db.getAllCertsFrom_eq hd.healthy hf, hl] at hq
    unfold Spec.PassesOn at hq
    unfold Aqua.isFluencePeer at h
    rw [M.bind_run_ok hq] at h
    have h2 := congrArg (fun o => match o with | Outcome.ok (_, e) => e | _ => none) h
    change none = some _ at h2
    cases h2
  · exact h

section
variable {root label ex : PublicKey} {e : UInt64} {rt lt : PublicKey → Trust}

/-- Genuine certificates can be imported, at times before they expire. -/
theorem start_bundle (h : Spec.Network root label ex peers) (hg : Spec.Genuine root label ex peers e rt lt) (he : e.toNat < 2 ^ 63) (cs : List (Certificate × UInt64))
    (hcs : ∀ p ∈ cs, p.1 ∈ Spec.startCerts root label ex peers rt lt ∧ p.2 < e) :
    Spec.Bundle (Db.empty.addRoot root 11) (cs.map Spec.atTime) := by
  have hrl := h.root_ne_label
  have hno : ∀ r, ¬ (Db.empty.addRoot root 11).Stored r := fun r hr => nomatch hr.2
  have hlive : ∀ {now : UInt64} {t : Trust}, t.expiresAt = .ofSecs e → now < e → Spec.Live t (.ofSecs now) := by
    intro now t ht hn
    have := UInt64.lt_iff_toNat_lt.mp hn
    refine (Spec.live_iff (show now.toNat < 2 ^ 63 by omega) (show t.expiresAt.secs.toNat < 2 ^ 63 by rw [ht]; exact he)).mpr ?_
    rw [ht]
    exact this
  have hform : ∀ c ∈ Spec.startCerts root label ex peers rt lt, ∀ t ∈ c.chain, t.expiresAt = .ofSecs e ∧ t.WholeSeconds := by
    intro c hc t ht
    unfold Spec.startCerts at hc
    rcases List.mem_cons.mp hc with rfl | hc
    · simp only [List.mem_cons, List.not_mem_nil, or_false] at ht
      rcases ht with rfl | rfl <;> exact ⟨hg.rootExpires _, hg.rootWhole _⟩
    · obtain ⟨p, -, rfl⟩ := List.mem_map.mp hc
      simp only [List.mem_cons, List.not_mem_nil, or_false] at ht
      rcases ht with rfl | rfl | rfl
      · exact ⟨hg.rootExpires _, hg.rootWhole _⟩
      · exact ⟨hg.rootExpires _, hg.rootWhole _⟩
      · exact ⟨hg.labelExpires _, hg.labelWhole _⟩
  have hedge : ∀ c ∈ Spec.startCerts root label ex peers rt lt, ∀ k t, Spec.Edge c.chain k t → Spec.BootEdge root label ex peers rt lt k t :=
    fun c hc k t hk => (Spec.bootEdge_iff hg.rootFor).mp ⟨c, hc, hk⟩
  have himp : ∀ c ∈ Spec.startCerts root label ex peers rt lt, ∀ t : UInt64, t < e →
      Spec.Importable (Db.empty.addRoot root 11) c (.ofSecs t) := by
    intro c hc t ht
    have hshape : 2 ≤ c.chain.length ∧ c.chain.length ≤ 3 ∧ c.chain[0]? = some (rt root) ∧ Spec.NoRevisit c.chain := by
      unfold Spec.startCerts at hc
      rcases List.mem_cons.mp hc with rfl | hc
      · exact ⟨Nat.le_refl 2, Nat.le_succ 2, rfl, Spec.noRevisit_pair fun h' => h.exRoot (by rw [hg.rootFor, hg.rootFor] at h'; exact h'.symm)⟩
      · obtain ⟨p, hm, rfl⟩ := List.mem_map.mp hc
        exact ⟨Nat.le_succ 2, Nat.le_refl 3, rfl, Spec.noRevisit_triple (by rw [hg.rootFor, hg.rootFor]; exact hrl) fun h' =>
          h.peersRoot (by rw [hg.rootFor, hg.labelFor] at h'; exact h' ▸ hm)⟩
    refine ⟨hshape.1, ?_, ?_, ?_, ?_, hshape.2.2.2, ?_, fun _ _ _ r hr => absurd hr (hno r)⟩
    · intro t0 h0
      rw [hshape.2.2.1] at h0
      cases h0
      refine ⟨11, by rw [hg.rootFor, Db.addRoot_rootFactor]; exact if_pos rfl, ?_⟩
      have := hshape.2.1
      omega
    · intro k t' hk
      have hle : t ≤ e := UInt64.le_iff_toNat_le.mpr (Nat.le_of_lt (UInt64.lt_iff_toNat_lt.mp ht))
      rcases hedge c hc k t' hk with ⟨rfl, rfl⟩ | ⟨rfl, rfl⟩ | ⟨rfl, -, rfl⟩ | ⟨rfl, p, hp, rfl⟩
      · exact hg.rootSigned _ (.inl rfl) _ hle
      · exact hg.rootSigned _ (.inr (.inr rfl)) _ hle
      · exact hg.rootSigned _ (.inr (.inl rfl)) _ hle
      · exact hg.labelSigned _ hp _ hle
    · exact fun t' ht' => hlive (hform c hc t' ht').1 ht
    · exact fun t' ht' => (hform c hc t' ht').2
    · rintro _ _ _ _ _ _ _ ⟨r, hr, -⟩
      exact hno _ hr
  constructor
  · intro p hp' q hq'
    obtain ⟨p, hm, rfl⟩ := List.mem_map.mp hp'
    obtain ⟨q, hm', rfl⟩ := List.mem_map.mp hq'
    exact himp p.1 (hcs p hm).1 q.2 (hcs q hm').2
  · intro p hp' q hq' k t t' hk hk' hf
    obtain ⟨p, hm, rfl⟩ := List.mem_map.mp hp'
    obtain ⟨q, hm', rfl⟩ := List.mem_map.mp hq'
    rcases hedge p.1 (hcs p hm).1 k t hk with ⟨rfl, rfl⟩ | ⟨rfl, rfl⟩ | ⟨rfl, -, rfl⟩ | ⟨rfl, x, -, rfl⟩ <;>
      rcases hedge q.1 (hcs q hm').1 _ t' hk' with ⟨h', rfl⟩ | ⟨h', rfl⟩ | ⟨h', -, rfl⟩ | ⟨h', y, -, rfl⟩ <;>
      first
        | exact absurd h' hrl
        | exact absurd h'.symm hrl
        | rfl
        | rw [hg.rootFor, hg.rootFor] at hf; rw [hf]
        | rw [hg.labelFor, hg.labelFor] at hf; rw [hf]

/-- The trust graph after the start. -/
theorem start_snapshot (hg : Spec.Genuine root label ex peers e rt lt) {cs : List (Certificate × UInt64)} (hcs : cs.map (·.1) = Spec.startCerts root label ex peers rt lt) {d : Db}
    (hd : Imported (Db.empty.addRoot root 11) (cs.map Spec.atTime) d) (now : UInt64) :
    Spec.Booted root label ex peers rt lt (d.snapshot (.ofSecs now)) (asI64 now < asI64 e) := by
  have hst : ∀ r, d.Stored r ↔ ∃ k t, Spec.BootEdge root label ex peers rt lt k t ∧ r = .auth ⟨t, k⟩ := by
    intro r
    rw [hd.stored]
    constructor
    · rintro (⟨p, hp, k, t, hk, rfl⟩ | ⟨⟨-, h⟩, -⟩)
      · obtain ⟨p, hm, rfl⟩ := List.mem_map.mp hp
        exact ⟨k, t, (Spec.bootEdge_iff hg.rootFor).mp ⟨p.1, hcs ▸ List.mem_map_of_mem hm, hk⟩, rfl⟩
      · nomatch h
    · rintro ⟨k, t, hk, rfl⟩
      obtain ⟨c, hc, hk⟩ := (Spec.bootEdge_iff hg.rootFor).mpr hk
      rw [← hcs] at hc
      obtain ⟨p, hp, rfl⟩ := List.mem_map.mp hc
      exact .inl ⟨_, List.mem_map_of_mem hp, k, t, hk, rfl⟩
  have hexp : ∀ k t, Spec.BootEdge root label ex peers rt lt k t → t.expiresAt = .ofSecs e := by
    rintro k t (⟨-, rfl⟩ | ⟨-, rfl⟩ | ⟨-, -, rfl⟩ | ⟨-, p, -, rfl⟩)
    · exact hg.rootExpires _
    · exact hg.rootExpires _
    · exact hg.rootExpires _
    · exact hg.labelExpires _
  constructor
  · intro k t
    show d.Stored _ ∧ Spec.Live t _ ↔ _
    rw [hst]
    constructor
    · rintro ⟨⟨k', t', hk, h'⟩, hl⟩
      cases h'
      unfold Spec.Live at hl
      rw [hexp _ _ hk] at hl
      exact ⟨hk, hl⟩
    · rintro ⟨hk, hl⟩
      refine ⟨⟨k, t, hk, rfl⟩, ?_⟩
      unfold Spec.Live
      rw [hexp _ _ hk]
      exact hl
  · rintro k k' ⟨r, hr, -⟩
    obtain ⟨_, _, _, h'⟩ := (hst _).mp hr
    cases h'
  · intro k
    show (∃ row ∈ d.roots, _) ↔ _
    rw [← Db.rootFactor_isSome, hd.rootFactor, Db.addRoot_rootFactor]
    by_cases hk : k = root <;> simp [hk]

/-- What the start script leaves behind when it is given genuine certificates in time. -/
theorem start_imported (hw : Env.wasm = true) (h : Spec.Network root label ex peers) (hg : Spec.Genuine root label ex peers e rt lt)
    (he : e.toNat < 2 ^ 63) {n : Node} (ho : n.init = n.creator) (times : List UInt64) (hlen : times.length = peers.length + 1)
    (htimes : ∀ t ∈ times, t < e) (hpeers : 3 * peers.length + 18 < 2 ^ 32) :
    ∃ (cs : List (Certificate × UInt64)) (d : Db),
      OnStart.run n (((Spec.startCerts root label ex peers rt lt).map Dto.ofCertificate).zip times) .empty = (.ok [.true], d) ∧
      cs.map (·.1) = Spec.startCerts root label ex peers rt lt ∧
      Imported (Db.empty.addRoot root 11) (cs.map Spec.atTime) d ∧ Reachable d ∧ d.relations.length ≤ 2 + 3 * peers.length := by
  have hp := C60_wasm_keys hw
  have hlen : (Spec.startCerts root label ex peers rt lt).length = times.length := by
    rw [hlen]; unfold Spec.startCerts; rw [List.length_cons, List.length_map]
  have hzip : ((Spec.startCerts root label ex peers rt lt).map Dto.ofCertificate).zip times =
      ((Spec.startCerts root label ex peers rt lt).zip times).map Spec.toStart := by
    rw [List.zip_map_left]; rfl
  have hfst : ((Spec.startCerts root label ex peers rt lt).zip times).map (·.1) = Spec.startCerts root label ex peers rt lt :=
    List.map_fst_zip (by omega)
  have hcs : ∀ p ∈ (Spec.startCerts root label ex peers rt lt).zip times, p.1 ∈ Spec.startCerts root label ex peers rt lt ∧ p.2 < e := by
    intro p hm
    have := List.of_mem_zip hm
    exact ⟨this.1, htimes _ this.2⟩
  have hsum : (((Spec.startCerts root label ex peers rt lt).zip times).map (·.1.chain.length)).sum = 2 + 3 * peers.length := by
    have : ((Spec.startCerts root label ex peers rt lt).zip times).map (·.1.chain.length) =
        (((Spec.startCerts root label ex peers rt lt).zip times).map (·.1)).map (·.chain.length) := by rw [List.map_map]; rfl
    rw [this, hfst]
    unfold Spec.startCerts
    rw [List.map_cons, List.sum_cons, List.map_map, show ((fun c : Certificate => c.chain.length) ∘ fun p : PublicKey => (⟨[rt root,
      rt label, lt p]⟩ : Certificate)) = fun _ => 3 from rfl, List.map_const']
    simp [Nat.mul_comm]
  rw [hzip]
  obtain ⟨d, hrun, hd, hreach⟩ := onStart_run ho h.rootId (hp _) (db := .empty) .init rfl _ (fun _ _ _ _ => hp _)
    (start_bundle h hg he _ hcs) (by rw [hsum]; show 0 + _ + 16 < _; omega)
  refine ⟨_, d, hrun, hfst, hd, hreach, ?_⟩
  have := hd.length
  rw [List.map_map] at this
  change d.relations.length ≤ 0 + (((Spec.startCerts root label ex peers rt lt).zip times).map (·.1.chain.length)).sum at this
  omega

/-- The answers of a node that has been started with genuine certificates. -/
theorem start_running (hw : Env.wasm = true) (h : Spec.Network root label ex peers) (hg : Spec.Genuine root label ex peers e rt lt)
    (he : e.toNat < 2 ^ 63) {cs : List (Certificate × UInt64)} {d : Db} (hfst : cs.map (·.1) = Spec.startCerts root label ex peers rt lt)
    (hd : Imported (Db.empty.addRoot root 11) (cs.map Spec.atTime) d) (hreach : Reachable d) (hlength : d.relations.length + 16 < 2 ^ 32) :
    (∀ now : UInt64, now < e → Spec.Running root label ex peers d now) ∧
      ∀ now : UInt64, e ≤ now → now.toNat < 2 ^ 63 → Spec.Over root d now := by
  have hrl := h.root_ne_label
  have hweight := fun pk now w => Db.weight_eq (w := w) hd.healthy hd.noFaults hlength pk (.ofSecs now)
  have hfac : ∀ k, d.rootFactor k = if k = root then some 11 else none := fun k => by rw [hd.rootFactor, Db.addRoot_rootFactor]
  have hadm := fun now : UInt64 => (start_snapshot hg hfst hd now).admissible h hg.rootFor hg.labelFor
  have hcw : ∀ ts : List Trust, d.certWeight ⟨rt root :: ts⟩ = 2 ^ (16 - (11 + ts.length)) := by
    intro ts
    unfold Db.certWeight
    dsimp only
    rw [hg.rootFor, hfac, if_pos rfl]
  have hlive : ∀ now : UInt64, now.toNat < 2 ^ 63 → (asI64 now < asI64 e ↔ now.toNat < e.toNat) := by
    intro now hn
    rw [asI64_of_lt hn, asI64_of_lt (show e.toNat < 2 ^ 63 by omega)]
    omega
  have hlab : ∀ (now : UInt64) (host : PublicKey), Spec.Labelled (d.snapshot (.ofSecs now)) root label host ↔
      asI64 now < asI64 e ∧ host ∈ peers := by
    intro now host
    constructor
    · rintro ⟨t0, t1, t2, ha, -⟩
      obtain ⟨hl, ⟨-, hc⟩ | ⟨-, -, hc⟩ | ⟨hm, -⟩⟩ := (hadm now _ _).mp ha
      · cases hc
      · cases hc
      · exact ⟨hl, hm⟩
    · rintro ⟨hl, hm⟩
      exact ⟨_, _, _, (hadm now _ _).mpr ⟨hl, .inr (.inr ⟨hm, rfl⟩)⟩, hg.rootFor _, hg.rootFor _⟩
  have hex : root ≠ ex := fun h' => h.exRoot h'.symm
  refine ⟨fun now hn => ?_, fun now hge hlt => ?_⟩
  · have hn := UInt64.lt_iff_toNat_lt.mp hn
    have hl : asI64 now < asI64 e := (hlive now (by omega)).mpr (by omega)
    have hnot : ∀ pk, pk ≠ root → d.rootFactor pk = none := fun pk hne => by rw [hfac, if_neg hne]
    refine ⟨fun host init creator => ?_, hweight _ _ _ ⟨.inr (.inl ⟨11, by rw [hfac, if_pos rfl], rfl⟩), ?_⟩,
      hweight _ _ _ ⟨.inr (.inr ⟨_, (hadm now _ _).mpr ⟨hl, .inl ⟨rfl, rfl⟩⟩, by rw [hcw]; rfl⟩), ?_⟩,
      fun hne => hweight _ _ _ ⟨.inr (.inr ⟨_, (hadm now _ _).mpr ⟨hl, .inr (.inl ⟨hne, rfl, rfl⟩)⟩, by rw [hcw]; rfl⟩), ?_⟩,
      fun p hm hne => hweight _ _ _ ⟨.inr (.inr ⟨_, (hadm now _ _).mpr ⟨hl, .inr (.inr ⟨hm, rfl⟩)⟩, by rw [hcw]; rfl⟩), ?_⟩,
      fun p h1 h2 h3 h4 => hweight _ _ _ ⟨.inl rfl, ?_⟩⟩
    · obtain ⟨b, h1, h2⟩ := isFluencePeer_noFaults hw h.rootId h.labelId hreach hd.noFaults host init creator now
      refine ⟨b, h1, h2.trans ((hlab now host).trans ⟨fun h' => h'.2, fun h' => ⟨hl, h'⟩⟩)⟩
    · rintro w (rfl | ⟨f, hf, rfl⟩ | ⟨c, hc, rfl⟩)
      · omega
      · rw [hfac, if_pos rfl] at hf; cases hf; exact Nat.le_refl _
      · obtain ⟨-, ⟨h', -⟩ | ⟨-, h', -⟩ | ⟨hm, -⟩⟩ := (hadm now _ _).mp hc
        · exact absurd h' hex
        · exact absurd h' hrl
        · exact absurd hm h.peersRoot
    · rintro w (rfl | ⟨f, hf, rfl⟩ | ⟨c, hc, rfl⟩)
      · omega
      · rw [hnot _ h.exRoot] at hf; cases hf
      · obtain ⟨-, ⟨-, rfl⟩ | ⟨-, h', -⟩ | ⟨hm, rfl⟩⟩ := (hadm now _ _).mp hc
        · rw [hcw]; exact Nat.le_refl _
        · exact absurd h' h.exLabel
        · rw [hcw]; exact (by decide : 2 ^ (16 - (11 + 2)) ≤ 16)
    · rintro w (rfl | ⟨f, hf, rfl⟩ | ⟨c, hc, rfl⟩)
      · omega
      · rw [hnot _ hrl.symm] at hf; cases hf
      · obtain ⟨-, ⟨h', -⟩ | ⟨-, h', rfl⟩ | ⟨hm, rfl⟩⟩ := (hadm now _ _).mp hc
        · exact absurd h'.symm h.exLabel
        · rw [hcw]; exact Nat.le_refl _
        · exact absurd hm h.peersLabel
    · rintro w (rfl | ⟨f, hf, rfl⟩ | ⟨c, hc, rfl⟩)
      · omega
      · rw [hnot _ (fun h' => h.peersRoot (h' ▸ hm))] at hf; cases hf
      · obtain ⟨-, ⟨h', -⟩ | ⟨-, h', -⟩ | ⟨-, rfl⟩⟩ := (hadm now _ _).mp hc
        · exact absurd h' hne
        · exact absurd hm (h' ▸ h.peersLabel)
        · rw [hcw]; exact Nat.le_refl _
    · rintro w (rfl | ⟨f, hf, rfl⟩ | ⟨c, hc, rfl⟩)
      · omega
      · rw [hnot _ h1] at hf; cases hf
      · obtain ⟨-, ⟨h', -⟩ | ⟨-, h', -⟩ | ⟨h', -⟩⟩ := (hadm now _ _).mp hc
        · exact absurd h' h2
        · exact absurd h' h3
        · exact absurd h' h4
  · have hge := UInt64.le_iff_toNat_le.mp hge
    have hl : ¬ asI64 now < asI64 e := fun h' => by have := (hlive now hlt).mp h'; omega
    refine ⟨fun host init creator => ?_, hweight _ _ _ ⟨.inr (.inl ⟨11, by rw [hfac, if_pos rfl], rfl⟩), ?_⟩, fun p hne => hweight _ _ _ ⟨.inl rfl, ?_⟩⟩
    · obtain ⟨b, h1, h2⟩ := isFluencePeer_noFaults hw h.rootId h.labelId hreach hd.noFaults host init creator now
      cases b
      · exact h1
      · exact absurd ((hlab now host).mp (h2.mp rfl)).1 hl
    · rintro w (rfl | ⟨f, hf, rfl⟩ | ⟨c, hc, rfl⟩)
      · omega
      · rw [hfac, if_pos rfl] at hf; cases hf; exact Nat.le_refl _
      · exact absurd ((hadm now _ _).mp hc).1 hl
    · rintro w (rfl | ⟨f, hf, rfl⟩ | ⟨c, hc, rfl⟩)
      · omega
      · rw [hfac, if_neg hne] at hf; cases hf
      · exact absurd ((hadm now _ _).mp hc).1 hl

end

section
variable {root label ex : KeyPair} {e i : UInt64}

/-- The trusts made with the secret keys are genuine. -/
theorem made_genuine (hw : Env.wasm = true) (root label ex : KeyPair) (peers : List PublicKey) (e i : UInt64) :
    Spec.Genuine root.pub label.pub ex.pub peers e (Spec.made root · e i) (Spec.made label · e i) :=
  ⟨fun _ => rfl, fun _ => rfl, fun _ => rfl, fun _ => rfl, fun _ => ⟨rfl, rfl⟩, fun _ => ⟨rfl, rfl⟩,
    fun _ _ _ h => Spec.made_verify _ (C60_wasm_keys hw _) _ _ _ h, fun _ _ _ h => Spec.made_verify _ (C60_wasm_keys hw _) _ _ _ h⟩

/-- The bootstrap certificates can be imported, at times before they expire. -/
theorem boot_bundle (hw : Env.wasm = true) (h : Spec.Network root.pub label.pub ex.pub peers) (he : e.toNat < 2 ^ 63) (cs : List (Certificate × UInt64))
    (hcs : ∀ p ∈ cs, p.1 ∈ Spec.bootCerts root label ex peers e i ∧ p.2 < e) :
    Spec.Bundle (Db.empty.addRoot root.pub 11) (cs.map Spec.atTime) :=
  start_bundle h (made_genuine hw root label ex peers e i) he cs hcs

omit [LawfulEnv] in
/-- The two years. -/
theorem two_years {now : UInt64} (h : now.toNat + 63072000 < 2 ^ 63) : (now + 63072000).toNat = now.toNat + 63072000 := by
  rw [UInt64.toNat_add, show (63072000 : UInt64).toNat = 63072000 from rfl, Nat.mod_eq_of_lt (by omega)]

/-- What the start script leaves behind when it is given the certificates of the administrator in time. -/
theorem boot_imported (hw : Env.wasm = true) (h : Spec.Network root.pub label.pub ex.pub peers)
    (adm : Node) (dbA : Db) (hnow : adm.now.toNat + 63072000 < 2 ^ 63) {certs : List CertDto}
    (hadm : (Admin.certificates adm root label ex (peers.map fun p => p.toPeerId.toBase58) dbA).1 = .ok certs)
    {n : Node} (ho : n.init = n.creator) (times : List UInt64) (hlen : times.length = certs.length)
    (htimes : ∀ t ∈ times, t.toNat < adm.now.toNat + 63072000) (hpeers : 3 * peers.length + 18 < 2 ^ 32) :
    ∃ (cs : List (Certificate × UInt64)) (d : Db), OnStart.run n (certs.zip times) .empty = (.ok [.true], d) ∧
      cs.map (·.1) = Spec.bootCerts root label ex peers (adm.now + 63072000) adm.now ∧
      Imported (Db.empty.addRoot root.pub 11) (cs.map Spec.atTime) d ∧ Reachable d ∧ d.relations.length ≤ 2 + 3 * peers.length := by
  rw [admin_certificates hw] at hadm
  cases hadm
  have he := two_years hnow
  refine start_imported hw h (made_genuine hw root label ex peers _ _) (by omega) ho times ?_
    (fun t ht => UInt64.lt_iff_toNat_lt.mpr (by have := htimes t ht; omega)) hpeers
  rw [hlen]
  unfold Spec.bootCerts Spec.startCerts
  rw [List.length_map, List.length_cons, List.length_map]

/-- **C84.** The administrator makes the certificates for the nodes `peers` with the program `admin`; a new node gets them with the start script, run by
the creator of the service before they expire.  The script reports nothing but `true`.  Then the node answers as `Spec.Running` says for the two years, and
afterwards as `Spec.Over` says. -/
theorem C84_bootstrap (hw : Env.wasm = true) (h : Spec.Network root.pub label.pub ex.pub peers)
    (adm : Node) (dbA : Db) (hnow : adm.now.toNat + 63072000 < 2 ^ 63) {certs : List CertDto}
    (hadm : (Admin.certificates adm root label ex (peers.map fun p => p.toPeerId.toBase58) dbA).1 = .ok certs)
    {n : Node} (ho : n.init = n.creator) (times : List UInt64) (hlen : times.length = certs.length)
    (htimes : ∀ t ∈ times, t.toNat < adm.now.toNat + 63072000) (hpeers : 3 * peers.length + 18 < 2 ^ 32) :
    ∃ d, OnStart.run n (certs.zip times) .empty = (.ok [.true], d) ∧
      (∀ now : UInt64, now.toNat < adm.now.toNat + 63072000 → Spec.Running root.pub label.pub ex.pub peers d now) ∧
      ∀ now : UInt64, adm.now.toNat + 63072000 ≤ now.toNat → now.toNat < 2 ^ 63 → Spec.Over root.pub d now := by
  obtain ⟨cs, d, hrun, hfst, hd, hreach, hlength⟩ := boot_imported hw h adm dbA hnow hadm ho times hlen htimes hpeers
  have he := two_years hnow
  obtain ⟨h1, h2⟩ := start_running hw h (made_genuine hw root label ex peers _ adm.now) (by omega) hfst hd hreach (by omega)
  exact ⟨d, hrun, fun now hn => h1 now (UInt64.lt_iff_toNat_lt.mpr (by omega)), fun now hge => h2 now (UInt64.le_iff_toNat_le.mpr (by omega))⟩

end

end TG
