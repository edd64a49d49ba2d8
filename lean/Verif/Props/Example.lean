/-
Properties C86 and C87: the function `trusted_computation` of the example, and what its user does to permit and forbid computations.
-/
import Verif.Model.Example
import Verif.Props.AquaFlow
import Verif.Props.History
import Verif.Proofs.Import

namespace TG
open TG.Service
variable [LawfulEnv]

/-- There is a certificate of `node` that passes through the client. -/
def Spec.TrustedBy (g : Spec.Snapshot) (client node : PublicKey) : Prop :=
  ∃ c, Spec.Admissible g node c ∧ ∃ t ∈ c.chain, t.issuedFor = client

/-- **C86.** `trusted_computation` computes exactly if, at the time of the clock of the relay, the relay has a certificate of the node that passes through the
client; otherwise it reports that there is none.  It only fails otherwise if the storage of the relay fails; then it reports that. -/
theorem C86_decides (hw : Env.wasm = true) {α : Type} (relay : Node) (o0 o1 : List Tetraplet) (client node : PublicKey)
    (hc : relay.init = client.toPeerId.toBase58) (compute : α) {db : Db} (hr : Reachable db) :
    let res := (Example.trustedComputation relay o0 o1 node.toPeerId.toBase58 compute db).1
    (Spec.TrustedBy (db.snapshot (.ofSecs relay.now)) client node ∧ res = .ok (some compute, none)) ∨
    (¬ Spec.TrustedBy (db.snapshot (.ofSecs relay.now)) client node ∧ res = .ok (none, some .noCerts)) ∨
    (¬ db.NoFaults ∧ res = .ok (none, some (.service (.tgError .internalStorageError)))) := by
  have hp := C60_wasm_keys hw
  have hq := (C77_queries relay o0 o1 node client (hp _) (hp _) db).2.2
  unfold Spec.PassesOn at hq
  unfold Example.trustedComputation
  rw [hc]
  rcases h : TrustGraph.getAllCertsFrom node client (.ofSecs relay.now) db with ⟨o, s⟩
  rw [h] at hq
  rcases (C04_search_returns hr.healthy node client (.ofSecs relay.now)).2 with ⟨cs, ho⟩ | ho
  · rw [h] at ho
    change o = _ at ho
    subst ho
    obtain ⟨all, db'', hall, hcs⟩ := C09_from_selects_partial hr.healthy h
    have hadm := (C02_complete_exactly_once hr.healthy.calm hall).2
    have hmem : cs ≠ [] ↔ Spec.TrustedBy (db.snapshot (.ofSecs relay.now)) client node := by
      rw [show cs ≠ [] ↔ ∃ c, c ∈ cs from ⟨List.exists_mem_of_ne_nil _, fun ⟨_, h'⟩ => List.ne_nil_of_mem h'⟩, hcs]
      refine exists_congr fun c => ?_
      rw [List.mem_filter, decide_eq_true_eq]
      exact and_congr_left fun _ => hadm c
    rw [M.bind_run_ok hq]
    rcases cs with _ | ⟨c, cs⟩
    · exact .inr (.inl ⟨fun h' => hmem.mpr h' rfl, rfl⟩)
    · exact .inl ⟨hmem.mp (by simp), rfl⟩
  · rw [h] at ho
    change o = _ at ho
    subst ho
    refine .inr (.inr ⟨fun hf => ?_, ?_⟩)
    · rw [Db.getAllCertsFrom_eq hr.healthy hf] at h
      cases h
    · rw [M.bind_run_ok hq]
      rfl

/-- Once the client has revoked the node, no certificate of the node passes through the client. -/
theorem Spec.not_trustedBy {g : Spec.Snapshot} {client node : PublicKey} (hne : client ≠ node) (h : g.revoked client node) :
    ¬ Spec.TrustedBy g client node := by
  rintro ⟨c, hc, t, ht, rfl⟩
  obtain ⟨i, hi, rfl⟩ := List.getElem_of_mem ht
  have hlast : c.chain[c.chain.length - 1]? = some c.chain[c.chain.length - 1] := List.getElem?_eq_getElem (by omega)
  have he := hc.linked.target _ hlast
  have hlong := hc.linked.long
  have hij : i < c.chain.length - 1 := by
    rcases Nat.lt_or_ge i (c.chain.length - 1) with h' | h'
    · exact h'
    · exfalso
      obtain rfl : i = c.chain.length - 1 := by omega
      exact hne he
  exact hc.unrevoked i (c.chain.length - 1) _ _ hij (List.getElem?_eq_getElem hi) hlast (by omega) (by rw [he]; exact h)

/-- **C86**: as long as the relay stores a revocation of the node by the client, nothing is computed on it. -/
theorem C86_revoked (hw : Env.wasm = true) {α : Type} (relay : Node) (o0 o1 : List Tetraplet) (client node : PublicKey)
    (hc : relay.init = client.toPeerId.toBase58) (hne : client ≠ node) (compute : α) {db : Db} (hr : Reachable db) {r : Revocation}
    (hs : db.Stored (.revocation r)) (hb : r.revokedBy = client) (hn : r.pk = node) :
    ∃ e, (Example.trustedComputation relay o0 o1 node.toPeerId.toBase58 compute db).1 = .ok (none, some e) := by
  have hno := Spec.not_trustedBy hne (g := db.snapshot (.ofSecs relay.now)) ⟨r, hs, hb, hn⟩
  rcases C86_decides hw relay o0 o1 client node hc compute hr with ⟨h, -⟩ | ⟨-, h⟩ | ⟨-, h⟩
  · exact absurd h hno
  · exact ⟨_, h⟩
  · exact ⟨_, h⟩

/-- A certificate of the client that it can extend by a trust in `pk`: `pk` is not on it, and nobody on it has revoked somebody after them, or `pk`. -/
structure Spec.Extensible (db : Db) (client pk : PublicKey) (now : Dur) (c : Certificate) : Prop where
  admissible : Spec.Admissible (db.snapshot now) client c
  fresh : ∀ t ∈ c.chain, t.issuedFor ≠ pk
  unrevoked : Spec.Unrevoked (db.snapshot now) c.chain
  permits : ∀ t ∈ c.chain, t.issuedFor ≠ client → ¬ (db.snapshot now).revoked t.issuedFor pk

/-- The certificate extended by the trust. -/
theorem Spec.Extensible.extend {db d : Db} {client : PublicKey} {t : Trust} {now later : Dur} {c : Certificate}
    (h : Spec.Extensible db client t.issuedFor now c) (hroots : d.roots = db.roots)
    (hstored : ∀ q, d.Stored q ↔ q = .auth ⟨t, client⟩ ∨ ((db.collect now).Stored q ∧ ¬ q.SamePair (.auth ⟨t, client⟩)))
    (hlive : ∀ x ∈ c.chain, Spec.Live x later) (hlt : Spec.Live t later) :
    Spec.Admissible (d.snapshot later) t.issuedFor ⟨c.chain ++ [t]⟩ := by
  have hlen : (c.chain ++ [t]).length = c.chain.length + 1 := by simp
  have hlong := h.admissible.linked.long
  have hold : ∀ {i : Nat}, i < c.chain.length → (c.chain ++ [t])[i]? = c.chain[i]? := fun hi => List.getElem?_append_left hi
  have hnew : (c.chain ++ [t])[c.chain.length]? = some t := by simp
  have hlast : c.chain[c.chain.length - 1]? = some c.chain[c.chain.length - 1] := List.getElem?_eq_getElem (by omega)
  have htarget := h.admissible.linked.target _ hlast
  have hcases : ∀ {i : Nat} {a : Trust}, (c.chain ++ [t])[i]? = some a → c.chain[i]? = some a ∨ (i = c.chain.length ∧ a = t) := by
    intro i a ha
    have hi := (List.getElem?_eq_some_iff.mp ha).1
    rcases Nat.lt_or_ge i c.chain.length with h' | h'
    · rw [hold h'] at ha; exact .inl ha
    · obtain rfl : i = c.chain.length := by omega
      rw [hnew] at ha
      cases ha
      exact .inr ⟨rfl, rfl⟩
  have hkeep : ∀ k x, x ∈ c.chain → (db.snapshot now).trusted k x → (d.snapshot later).trusted k x := by
    rintro k x hx ⟨h1, h2⟩
    refine ⟨(hstored _).mpr (.inr ⟨(Db.stored_collect now).mpr ⟨h1, ?_⟩, ?_⟩), hlive x hx⟩
    · rintro a e; cases e; exact h2
    · rintro ⟨h', -⟩; exact h.fresh x hx h'
  have hrev : ∀ {k k'}, (d.snapshot later).revoked k k' → (db.snapshot now).revoked k k' ∧ ¬ (k = client ∧ k' = t.issuedFor) := by
    rintro k k' ⟨r, hr, rfl, rfl⟩
    rcases (hstored _).mp hr with e | ⟨hs, hp⟩
    · cases e
    · exact ⟨⟨r, ((Db.stored_collect now).mp hs).1, rfl, rfl⟩, fun h' => hp ⟨h'.2, h'.1⟩⟩
  refine ⟨⟨?_, ?_, ?_, ?_⟩, ?_, ?_⟩
  · show 2 ≤ (c.chain ++ [t]).length
    omega
  · intro a ha
    change (c.chain ++ [t])[0]? = some a at ha
    rw [hold (by omega)] at ha
    obtain ⟨h1, h2⟩ := h.admissible.linked.root a ha
    refine ⟨?_, hkeep _ _ (List.mem_of_getElem? ha) h2⟩
    obtain ⟨row, hm, he⟩ := h1
    exact ⟨row, hroots ▸ hm, he⟩
  · intro i a b ha hb
    rcases hcases hb with hb | ⟨hi, rfl⟩
    · rcases hcases ha with ha | ⟨hi, -⟩
      · exact hkeep _ _ (List.mem_of_getElem? hb) (h.admissible.linked.link i a b ha hb)
      · have := (List.getElem?_eq_some_iff.mp hb).1; omega
    · rcases hcases ha with ha | ⟨hi', -⟩
      · obtain rfl : i = c.chain.length - 1 := by omega
        rw [hlast] at ha
        cases ha
        rw [htarget]
        exact ⟨(hstored _).mpr (.inl rfl), hlt⟩
      · omega
  · intro x hx
    change (c.chain ++ [t])[(c.chain ++ [t]).length - 1]? = some x at hx
    rw [show (c.chain ++ [t]).length - 1 = c.chain.length by omega, hnew] at hx
    cases hx
    rfl
  · intro i j a b hij ha hb e
    rcases hcases hb with hb | ⟨rfl, rfl⟩
    · rcases hcases ha with ha | ⟨rfl, -⟩
      · exact h.admissible.noRevisit i j a b hij ha hb e
      · have := (List.getElem?_eq_some_iff.mp hb).1; omega
    · rcases hcases ha with ha | ⟨rfl, -⟩
      · exact absurd e (h.fresh a (List.mem_of_getElem? ha))
      · omega
  · intro i j a b hij ha hb _ hr
    obtain ⟨hr, hr'⟩ := hrev hr
    rcases hcases hb with hb | ⟨rfl, rfl⟩
    · rcases hcases ha with ha | ⟨rfl, -⟩
      · exact h.unrevoked i j a b hij ha hb hr
      · have := (List.getElem?_eq_some_iff.mp hb).1; omega
    · rcases hcases ha with ha | ⟨rfl, -⟩
      · by_cases hc : a.issuedFor = client
        · exact hr' ⟨hc, rfl⟩
        · exact h.permits a (List.mem_of_getElem? ha) hc hr
      · omega

/-- **C87**, permitting.  If the client has an extensible certificate of weight at least 2 and no relation with the node as new as the trust to be made, then
`add_trust` reports no error, and afterwards the computation is permitted until the trust or the certificate of the client expires. -/
theorem C87_permit (hw : Env.wasm = true) {α : Type} (compute : α) {relay n : Node} {relayDb db : Db} {sig : SigService} {kp : KeyPair}
    {node : PublicKey} {o0 o1 : List Tetraplet} {e : UInt64} {c : Certificate} {w : Nat} (hr : Reachable db) (hf : db.NoFaults)
    (hbd : db.Bounded 0) (hs : Spec.SignsWith sig kp) (hclock : relay.now ≤ n.now) (he : n.now < e) (he63 : e.toNat < 2 ^ 63)
    (hc : Spec.Extensible db kp.pub node (.ofSecs n.now) c)
    (hweight : ∃ s, TrustGraph.weight kp.pub (.ofSecs n.now) db = (.ok w, s)) (hw2 : 2 ≤ w)
    (hold : ∀ q, db.Stored q → q.issuedBy = kp.pub → q.issuedFor = node → q.issuedAt.total < (Dur.ofSecs relay.now).total) :
    ∃ d, Aqua.addTrust relay relayDb sig n o0 o1 kp.pub.toPeerId.toBase58 node.toPeerId.toBase58 e db = (.ok none, d) ∧
      ∀ (relay' : Node) (o0 o1 : List Tetraplet), relay'.init = kp.pub.toPeerId.toBase58 → relay'.now < e →
        (∀ t ∈ c.chain, Spec.Live t (.ofSecs relay'.now)) →
        (Example.trustedComputation relay' o0 o1 node.toPeerId.toBase58 compute d).1 = .ok (some compute, none) := by
  have hp := C60_wasm_keys hw
  obtain ⟨t, h1, h2, h3, h4, -, h5⟩ := C79_add_trust relay n relayDb db sig kp node o0 o1 e (hp _) (hp _) hs
  have h5 := h5 hclock
  subst h1
  have he' := UInt64.lt_iff_toNat_lt.mp he
  have hv : t.verify kp.pub (.ofSecs n.now) = .ok () := (h4 _).mpr (by
    show n.now.toNat * 1000000000 + 0 ≤ e.toNat * 1000000000 + 0
    omega)
  obtain ⟨s, hweight⟩ := hweight
  have hww : TrustGraph.weight kp.pub (.ofSecs n.now) db = (.ok w, db.collect (.ofSecs n.now)) := by
    obtain ⟨w', h'⟩ := Db.weight_returns hr.healthy hf hbd kp.pub (.ofSecs n.now)
    rw [hweight] at h'
    cases h'
    exact hweight
  have hne : kp.pub ≠ t.issuedFor := by
    intro h'
    have hlong := hc.admissible.linked.long
    have hlast : c.chain[c.chain.length - 1]? = some c.chain[c.chain.length - 1] := List.getElem?_eq_getElem (by omega)
    exact hc.fresh _ (List.mem_of_getElem? hlast) ((hc.admissible.linked.target _ hlast).trans h')
  rw [Db.addTrust_eq hr.healthy hf hv hww, if_neg hne, if_neg (by omega)] at h5
  have hwhole : (TrustRelation.auth ⟨t, kp.pub⟩).Whole := by
    show t.issuedAt.Whole ∧ t.expiresAt.Whole
    rw [h2, h3]
    exact ⟨rfl, rfl⟩
  have hhc := hr.healthy.collect (.ofSecs n.now)
  have hst := fun q => Db.stored_update_fresh (q := q) hhc hwhole (fun r hr' hpair => .inr (by
    show r.issuedAt.total < t.issuedAt.total
    rw [h3]
    exact hold r ((Db.stored_collect _).mp hr').1 hpair.2 hpair.1))
  refine ⟨_, h5, fun relay' o0' o1' hinit hlt hlive => ?_⟩
  have hreach : Reachable ((db.collect (.ofSecs n.now)).update (.auth ⟨t, kp.pub⟩)) := by
    have := hr.step (.addTrust t kp.pub (.ofSecs n.now))
    rwa [show Op.run (.addTrust t kp.pub (.ofSecs n.now)) db = (TrustGraph.addTrust t kp.pub (.ofSecs n.now) db).2 from rfl,
      Db.addTrust_eq hr.healthy hf hv hww, if_neg hne, if_neg (by omega)] at this
  have hlt' := UInt64.lt_iff_toNat_lt.mp hlt
  have hadm := hc.extend (d := (db.collect (.ofSecs n.now)).update (.auth ⟨t, kp.pub⟩)) (later := .ofSecs relay'.now) (Db.update_roots _) hst hlive
    ((Spec.live_iff (show relay'.now.toNat < 2 ^ 63 by omega) (by rw [h2]; exact he63)).mpr (by rw [h2]; exact hlt'))
  have htrusted : Spec.TrustedBy (((db.collect (.ofSecs n.now)).update (.auth ⟨t, kp.pub⟩)).snapshot (.ofSecs relay'.now)) kp.pub t.issuedFor := by
    refine ⟨_, hadm, ?_⟩
    have hlong := hc.admissible.linked.long
    have hlast : c.chain[c.chain.length - 1]? = some c.chain[c.chain.length - 1] := List.getElem?_eq_getElem (by omega)
    exact ⟨_, List.mem_append_left _ (List.mem_of_getElem? hlast), hc.admissible.linked.target _ hlast⟩
  rcases C86_decides hw relay' o0' o1' kp.pub t.issuedFor hinit compute hreach with ⟨-, h⟩ | ⟨h, -⟩ | ⟨h, -⟩
  · exact h
  · exact absurd htrusted h
  · exact absurd ((hf.collect _).update _) h

/-- **C87**, forbidding.  If the client has no relation with the node as new as the revocation to be made, then `revoke` reports no error, and afterwards the
computation is refused, whatever happens, until somebody submits a trust of the client in the node that was made after the revocation.  Where another
certificate through the client does not contain the node, nothing changes. -/
theorem C87_forbid (hw : Env.wasm = true) {α : Type} (compute : α) {relay n : Node} {relayDb db : Db} {sig : SigService} {kp : KeyPair}
    {node : PublicKey} {o0 : List Tetraplet} (hr : Reachable db) (hf : db.NoFaults) (hs : Spec.SignsWith sig kp) (hclock : relay.now ≤ n.now)
    (hne : kp.pub ≠ node)
    (hold : ∀ q, db.Stored q → q.issuedBy = kp.pub → q.issuedFor = node → q.issuedAt.total < (Dur.ofSecs relay.now).total) :
    ∃ d, Aqua.revoke relay relayDb sig n o0 kp.pub.toPeerId.toBase58 node.toPeerId.toBase58 db = (.ok none, d) ∧
      (∀ d', Later (fun op => ∀ a : Auth, op.Submits (.auth a) → a.issuedBy = kp.pub → a.trust.issuedFor = node →
          a.trust.issuedAt.total ≤ (Dur.ofSecs relay.now).total) d d' →
        ∀ (relay' : Node) (o0 o1 : List Tetraplet), relay'.init = kp.pub.toPeerId.toBase58 →
          ∃ e, (Example.trustedComputation relay' o0 o1 node.toPeerId.toBase58 compute d').1 = .ok (none, some e)) ∧
      ∀ (relay' : Node) (o0 o1 : List Tetraplet) (other : PublicKey) (c : Certificate), relay'.init = kp.pub.toPeerId.toBase58 →
        Spec.Admissible (db.snapshot (.ofSecs relay'.now)) other c → (∃ t ∈ c.chain, t.issuedFor = kp.pub) → (∀ t ∈ c.chain, t.issuedFor ≠ node) →
        (Example.trustedComputation relay' o0 o1 other.toPeerId.toBase58 compute d).1 = .ok (some compute, none) := by
  have hp := C60_wasm_keys hw
  obtain ⟨r, h1, h2, h3, hv, -, h5⟩ := C81_revoke relay n relayDb db sig kp node o0 (hp _) (hp _) hs
  have h5 := h5 hclock
  subst h1
  rw [Db.revoke_eq hr.healthy hf hv] at h5
  have hwhole : (TrustRelation.revocation r).Whole := by
    show r.revokedAt.Whole
    rw [h3]; rfl
  have hst := fun q => Db.stored_update_fresh (q := q) hr.healthy hwhole (fun x hx hpair => .inr (by
    show x.issuedAt.total < r.revokedAt.total
    rw [h3]
    exact hold x hx (hpair.2.trans h2) hpair.1))
  have hreach : Reachable (db.update (.revocation r)) := by
    have := hr.step (.revoke r)
    rwa [show Op.run (.revoke r) db = (TrustGraph.revoke r db).2 from rfl, Db.revoke_eq hr.healthy hf hv] at this
  refine ⟨_, h5, fun d' hl relay' o0' o1' hinit => ?_, fun relay' o0' o1' other c hinit hadm hvia hnot => ?_⟩
  · obtain ⟨⟨r', hs', hb', hp', -⟩, -⟩ := C29_revocation_stays_partial (r := r) hreach ((hst _).mpr (.inl rfl))
      (hl.mono fun op hop a ha hcov => by rw [h3]; exact hop a ha (hcov.1.trans h2) hcov.2)
    exact C86_revoked hw relay' o0' o1' kp.pub r.pk hinit hne compute (hl.reachable hreach) hs' (hb'.trans h2) hp'
  · have htr : ∀ k x, x ∈ c.chain → (db.snapshot (.ofSecs relay'.now)).trusted k x →
        ((db.update (.revocation r)).snapshot (.ofSecs relay'.now)).trusted k x := by
      rintro k x hx ⟨ha, hb⟩
      exact ⟨(hst _).mpr (.inr ⟨ha, fun hpair => hnot x hx hpair.1⟩), hb⟩
    have hadm' : Spec.Admissible ((db.update (.revocation r)).snapshot (.ofSecs relay'.now)) other c := by
      refine ⟨⟨hadm.linked.long, fun t ht => ?_, fun i a b ha hb => htr _ _ (List.mem_of_getElem? hb) (hadm.linked.link i a b ha hb),
        hadm.linked.target⟩, hadm.noRevisit, fun i j a b hij ha hb hj => ?_⟩
      · obtain ⟨hroot, htrusted⟩ := hadm.linked.root t ht
        refine ⟨?_, htr _ _ (List.mem_of_getElem? ht) htrusted⟩
        obtain ⟨row, hm, hrow⟩ := hroot
        exact ⟨row, (Db.update_roots _).symm ▸ hm, hrow⟩
      · rintro ⟨q, hq, hqa, hqb⟩
        rcases (hst _).mp hq with e | ⟨hsq, -⟩
        · cases e
          exact hnot b (List.mem_of_getElem? hb) hqb.symm
        · exact hadm.unrevoked i j a b hij ha hb hj ⟨q, hsq, hqa, hqb⟩
    rcases C86_decides hw relay' o0' o1' kp.pub other hinit compute hreach with ⟨-, h⟩ | ⟨h, -⟩ | ⟨h, -⟩
    · exact h
    · exact absurd ⟨c, hadm', hvia⟩ h
    · exact absurd (hf.update _) h

end TG
