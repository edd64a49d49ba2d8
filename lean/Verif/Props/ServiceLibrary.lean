/-
Properties C125-C127: what the library guarantees over time, as it is seen through the service.
-/
import Verif.Proofs.ServiceLibrary
import Verif.Props.Speech
import Verif.Props.Stays
import Verif.Props.ShutOut
import Verif.Props.Strangers
import Verif.Props.OwnWeight
import Verif.Props.Updates
import Verif.Props.Subnetwork
import Verif.Props.Repeat
import Verif.Props.Provenance

namespace TG
open Spec SqlStorage

section
variable [Env]

/-- **C125**, the reason: whatever happens to a running service, its file is that of a graph that has become what it is by the library calls that the calls of the service
stand for, and each record tells the outcome of such a call. -/
theorem C125_library {faulty : Prop} {tr : List Event} {i : Option Instance} {f : Sql.File} (h : ServiceRun faulty tr i f) :
    ∃ db, Acts ⟨[], [], []⟩ tr db ∧ (i.isSome → f = file db) := by
  obtain ⟨-, db, hs, h⟩ := h.works
  refine ⟨db, hs, fun hi => ?_⟩
  rcases h with ⟨h, -⟩ | ⟨rfl, -⟩
  · exact h
  · cases hi

/-- Two calls of a run that report success, and what happens to the graph in between. -/
theorem ServiceRun.between {faulty : Prop} {pre mid post : List Event} {cp cp' : CallParams} {c c' : Call} {r r' : Res Payload} {i : Option Instance} {f : Sql.File}
    (h : ServiceRun faulty (pre ++ .call cp c (.ok r) :: (mid ++ .call cp' c' (.ok r') :: post)) i f)
    (hn : offeredIn (pre ++ .call cp c (.ok r) :: (mid ++ .call cp' c' (.ok r') :: post)) + 16 < 2 ^ 32)
    (hs : r.success = true) (hs' : r'.success = true) (hc : ∀ p, ¬ Computes c p) (hc' : ∀ p, ¬ Computes c' p) :
    ∃ op op' a a' db db' d d', Reachable db ∧ db.relations.length + 16 < 2 ^ 32 ∧ db'.relations.length + 16 < 2 ^ 32 ∧ Allowed cp c ∧ Allowed cp' c' ∧
      Means cp c op ∧ Means cp' c' op' ∧ op.call db = (.ok a, d) ∧ op'.call db' = (.ok a', d') ∧ r = ⟨true, none, c.present a⟩ ∧ r' = ⟨true, none, c'.present a'⟩ ∧
      Later (fun x => x = op ∨ Made mid x) db db' ∧ Later (Made pre) ⟨[], [], []⟩ db := by
  obtain ⟨z, hz, -⟩ := C125_library h
  obtain ⟨m1, h1, hz⟩ := hz.split _ _ rfl
  obtain ⟨m2, h2, hz⟩ := hz.split [_] _ rfl
  obtain ⟨m3, h3, hz⟩ := hz.split _ _ rfl
  obtain ⟨m4, h4, -⟩ := hz.split [_] _ rfl
  have hsum : offeredIn (pre ++ .call cp c (.ok r) :: (mid ++ .call cp' c' (.ok r') :: post)) =
      offeredIn pre + (c.offered + (offeredIn mid + (c'.offered + offeredIn post))) := by simp [offeredIn]
  rw [hsum] at hn
  have one : offeredIn [.call cp c (.ok r)] = c.offered := by simp [offeredIn]
  have r1 := h1.reachable .init
  have r2 := h2.reachable r1
  have l1 := h1.length .init (by show 0 + _ + 16 < _; omega)
  rw [show (⟨[], [], []⟩ : Db).relations.length = 0 from rfl] at l1
  have l2 := h2.length r1 (by rw [one]; omega)
  rw [one] at l2
  have l3 := h3.length r2 (by omega)
  rcases h2.single with ⟨p, hp, -⟩ | ⟨h, -⟩ | ⟨op, fs, fs1, a, d, ha, hm, hcall, hr, rfl⟩
  · exact absurd hp (hc p)
  · rw [hs] at h; cases h
  rcases h4.single with ⟨p, hp, -⟩ | ⟨h, -⟩ | ⟨op', fs', fs1', a', d', ha', hm', hcall', hr', rfl⟩
  · exact absurd hp (hc' p)
  · rw [hs'] at h; cases h
  have hd : d = op.run { m1 with faults := fs } := by rw [← Op.call_state, hcall]
  refine ⟨op, op', a, a', _, _, d, d', r1.weather fs, by show m1.relations.length + 16 < _; omega, by show m3.relations.length + 16 < _; omega, ha, ha', hm, hm', hcall, hcall',
    hr, hr', ?_, h1.later.weather fs⟩
  refine Later.weather fs' (Later.trans (b := { d with faults := fs1 }) ?_ (h3.later.mono fun x h => .inr h))
  rw [hd]
  exact .weather fs1 (.step op (.inl rfl) .refl)

end

theorem M.bind_pure_ok {S ε α β : Type} {x : M S ε α} {g : α → β} {s s' : S} {b : β} (h : (x >>= fun a => pure (g a)) s = (.ok b, s')) :
    ∃ a, x s = (.ok a, s') ∧ b = g a := by
  rw [M.bind_run] at h
  rcases hx : x s with ⟨o, t⟩
  rw [hx] at h
  rcases o with a | e | _ | _
  · cases h
    exact ⟨a, rfl, rfl⟩
  · cases h
  · cases h
  · cases h

/-- The key is on the certificate. -/
def Spec.On [Env] (d : CertDto) (k : PublicKey) : Prop := ∃ x ∈ d.chain, Names x.issuedFor k

theorem Dur.ofSecs_total_le (d : Dur) : (Dur.ofSecs d.secs).total ≤ d.total := by
  simp [Dur.ofSecs, Dur.total]

theorem asI64_mono {x y : UInt64} (h : x ≤ y) (hy : y.toNat < 2 ^ 63) : asI64 x ≤ asI64 y := by
  have := UInt64.le_iff_toNat_le.mp h
  rw [asI64_of_lt hy, asI64_of_lt (by omega)]
  omega

theorem asI64_strict {x y : UInt64} (h : x < y) (hy : y.toNat < 2 ^ 63) : asI64 x < asI64 y := by
  have := UInt64.lt_iff_toNat_lt.mp h
  rw [asI64_of_lt hy, asI64_of_lt (by omega)]
  omega

variable [LawfulEnv]

theorem Spec.On.of_mem (hw : Env.wasm = true) {c : Certificate} {k : PublicKey} (h : k ∈ c.keys) : On (Dto.ofCertificate c) k := by
  obtain ⟨t, ht, rfl⟩ := List.mem_map.mp h
  exact ⟨_, List.mem_map_of_mem ht, names_toPeerId hw _⟩

/-- **C125.**  If the service returns a certificate at time `t`, it returns it again at a later time `T` before the trusts expire, whatever calls have been made in
between with times up to `T`, if nothing has been submitted between two keys of the certificate.  If only such trusts have been submitted between them as expire
after `T`, then the weight of the key is above 0. -/
theorem C125_stays {faulty : Prop} {pre mid post : List Event} {cp cp' : CallParams} {c' : Call} {p : Str} {t T : UInt64} {r r' : Res Payload} {ds : List CertDto}
    {d : CertDto} {i : Option Instance} {f : Sql.File} (hw : Env.wasm = true)
    (h : ServiceRun faulty (pre ++ .call cp (.getAllCerts p t) (.ok r) :: (mid ++ .call cp' c' (.ok r') :: post)) i f)
    (hn : offeredIn (pre ++ .call cp (.getAllCerts p t) (.ok r) :: (mid ++ .call cp' c' (.ok r') :: post)) + 16 < 2 ^ 32)
    (hr : r.payload = .certs ds) (hd : d ∈ ds) (ht : t ≤ T) (hlive : ∀ x ∈ d.chain, T < x.expiresAt ∧ x.expiresAt.toNat < 2 ^ 63)
    (htime : ∀ op u, Made mid op → op.time = some u → u.secs ≤ T) (hs : r'.success = true) :
    (c' = .getAllCerts p T → (∀ op q, Made mid op → op.Submits q → ¬ (On d q.issuedBy ∧ On d q.issuedFor)) → ∃ ds', r'.payload = .certs ds' ∧ d ∈ ds') ∧
    (c' = .getWeight p T → (∀ op q, Made mid op → op.Submits q → On d q.issuedBy → On d q.issuedFor →
      ∃ a, q = .auth a ∧ T < a.trust.expiresAt.secs ∧ a.trust.expiresAt.secs.toNat < 2 ^ 63) → ∃ w, r'.payload = .weight w p ∧ 0 < w) := by
  have hok : r.success = true := by
    by_contra hne
    obtain ⟨z, hz, -⟩ := C125_library h
    obtain ⟨m1, -, hz⟩ := hz.split _ _ rfl
    obtain ⟨m2, h2, -⟩ := hz.split [_] _ rfl
    rcases h2.single with ⟨x, hx, -⟩ | ⟨-, he⟩ | ⟨op, _, _, a, _, -, -, -, he, -⟩
    · cases hx
    · rw [hr] at he
      cases he
      cases hd
    · rw [he] at hne
      exact hne rfl
  have live : ∀ {c : Certificate}, (∀ x ∈ (Dto.ofCertificate c).chain, T < x.expiresAt ∧ x.expiresAt.toNat < 2 ^ 63) → ∀ x ∈ c.chain, Spec.Live x (.ofSecs T) :=
    fun h x hx => asI64_strict (h _ (List.mem_map_of_mem hx)).1 (h _ (List.mem_map_of_mem hx)).2
  have below : ∀ {g : Spec.Snapshot} {k : PublicKey} {c : Certificate}, Admissible g k c →
      (∀ x ∈ (Dto.ofCertificate c).chain, T < x.expiresAt ∧ x.expiresAt.toNat < 2 ^ 63) → T.toNat < 2 ^ 63 := by
    intro g k c hc h
    have hlong := hc.linked.long
    obtain ⟨h1, h2⟩ := h _ (List.mem_map_of_mem (List.getElem_mem (show 0 < c.chain.length by omega)))
    exact (UInt64.lt_iff_toNat_lt.mp h1).trans h2
  constructor
  · rintro rfl hsp
    obtain ⟨op, op', a, a', db, db', s, s', hre, -, -, -, -, hm, hm', hc, hc', rfl, rfl, hl, -⟩ := h.between hn hok hs (fun _ h => by cases h) (fun _ h => by cases h)
    cases hm with
    | getAllCerts hk =>
      cases hm' with
      | getAllCerts hk' =>
        cases hk.unique hk'
        obtain ⟨cs, e, rfl⟩ := M.bind_pure_ok hc
        obtain ⟨cs', e', rfl⟩ := M.bind_pure_ok hc'
        cases hr
        obtain ⟨c, hcs, rfl⟩ := List.mem_map.mp hd
        have hT := below (((C02_complete_exactly_once hre.healthy e).2 c).mp hcs) hlive
        refine ⟨_, rfl, List.mem_map_of_mem (C121_certificate_stays hre e hcs (live hlive) (hl.mono ?_) e')⟩
        rintro op (rfl | ho)
        · exact ⟨fun u hu => by cases hu; exact asI64_mono ht hT, fun q hq => by cases hq.1⟩
        · exact ⟨fun u hu => asI64_mono (htime op u ho hu) hT, fun q hq hk => hsp op q ho hq ⟨.of_mem hw hk.1, .of_mem hw hk.2⟩⟩
  · rintro rfl hsp
    obtain ⟨op, op', a, a', db, db', s, s', hre, -, hn', -, -, hm, hm', hc, hc', rfl, rfl, hl, -⟩ := h.between hn hok hs (fun _ h => by cases h) (fun _ h => by cases h)
    cases hm with
    | @getAllCerts _ _ k hk =>
      cases hm' with
      | getWeight hk' =>
        cases hk.unique hk'
        obtain ⟨cs, e, rfl⟩ := M.bind_pure_ok hc
        obtain ⟨w, e', rfl⟩ := M.bind_pure_ok hc'
        cases hr
        obtain ⟨c, hcs, rfl⟩ := List.mem_map.mp hd
        have hT := below (((C02_complete_exactly_once hre.healthy e).2 c).mp hcs) hlive
        refine ⟨w, rfl, ?_⟩
        have hl' : Later (Spec.Sustains c.keys (.ofSecs T)) db db'.calm := by
          refine .weather [] (hl.mono ?_)
          rintro op (rfl | ho)
          · exact ⟨fun u hu => by cases hu; exact asI64_mono ht hT, fun q hq => by cases hq.1⟩
          · refine ⟨fun u hu => asI64_mono (htime op u ho hu) hT, fun q hq h1 h2 => ?_⟩
            obtain ⟨a, rfl, h3, h4⟩ := hsp op q ho hq (.of_mem hw h1) (.of_mem hw h2)
            exact ⟨a, rfl, asI64_strict h3 h4⟩
        obtain ⟨⟨cs', e2⟩, -⟩ := C14_cert_queries_succeed (hl'.reachable hre) (Db.calm_noFaults _) k k (.ofSecs T)
        have h5 := (C121_path_stays hre e hcs (live hlive) hl' (Prod.ext e2 rfl)).2 hn' w _ ((TrustGraph.weight_transparent _ _).ok e')
        exact Nat.lt_of_lt_of_le (certWeight_pos (((C02_complete_exactly_once hre.healthy e).2 c).mp hcs)) h5

/-- Roots are set by the owner. -/
theorem Spec.OwnerSet.of_root {tr : List Event} {db : Db} {k : PublicKey} (h : Later (Made tr) ⟨[], [], []⟩ db) (hk : (db.rootFactor k).isSome) : OwnerSet tr k := by
  refine Later.roots (P := OwnerSet tr) (h.mono ?_) (fun k h => by cases h) k hk
  rintro _ ⟨cp, c, o, he, ha, hm⟩ k n rfl
  cases hm with
  | setRoot hp => exact ⟨cp, _, _, o, he, ha.1 _ _ rfl, hp⟩

/-- Every answer is the answer of the library at some moment of the run. -/
theorem Spec.Acts.answered {db z : Db} {tr : List Event} {cp : CallParams} {c : Call} {r : Res Payload} (h : Acts db tr z) (hr : Reachable db)
    (he : Event.call cp c (.ok r) ∈ tr) (hn : db.relations.length + offeredIn tr + 16 < 2 ^ 32) :
    ∃ m, Later (Made tr) db m ∧ m.relations.length + 16 < 2 ^ 32 ∧
      ((∃ p, Computes c p ∧ r = ⟨true, none, p⟩) ∨ (r.success = false ∧ r.payload = c.neutral) ∨
        ∃ op a d, Allowed cp c ∧ Means cp c op ∧ op.call m = (.ok a, d) ∧ r = ⟨true, none, c.present a⟩) := by
  obtain ⟨pre, post, rfl⟩ := List.append_of_mem he
  obtain ⟨m1, h1, hz⟩ := h.split _ _ rfl
  obtain ⟨m2, h2, -⟩ := hz.split [_] _ rfl
  have hsum : offeredIn (pre ++ .call cp c (.ok r) :: post) = offeredIn pre + (c.offered + offeredIn post) := by simp [offeredIn]
  rw [hsum] at hn
  have hl := h1.length hr (by omega)
  have hlater : Later (Made (pre ++ .call cp c (.ok r) :: post)) db m1 :=
    h1.later.mono fun op ⟨cp, c, o, hm, h⟩ => ⟨cp, c, o, List.mem_append_left _ hm, h⟩
  rcases h2.single with hp | hf | ⟨op, fs, _, a, d, ha, hm, hcall, hr, -⟩
  · exact ⟨m1, hlater, by omega, .inl hp⟩
  · exact ⟨m1, hlater, by omega, .inr (.inl hf)⟩
  · exact ⟨{ m1 with faults := fs }, hlater.weather fs, by show m1.relations.length + 16 < _; omega, .inr (.inr ⟨op, a, d, ha, hm, hcall, hr⟩)⟩

/-- **C126.**  Let `export_revocations` for a key answer with revocations by all the roots that the owner ever sets, the key itself not being one.  If from then on no trust in
the key is submitted that a root has issued after its revocation, then all later answers say that the key has weight 0, no certificates, and confers nothing. -/
theorem C126_shut_out {faulty : Prop} {pre post : List Event} {cp : CallParams} {p : Str} {r : Res Payload} {rs : List RevocationDto} {K : PublicKey}
    {i : Option Instance} {f : Sql.File} (hw : Env.wasm = true) (h : ServiceRun faulty (pre ++ .call cp (.exportRevocations p) (.ok r) :: post) i f)
    (hn : offeredIn (pre ++ .call cp (.exportRevocations p) (.ok r) :: post) + 16 < 2 ^ 32) (hK : Names p K) (hr : r.payload = .revocations rs)
    (hroots : ∀ k, OwnerSet (pre ++ .call cp (.exportRevocations p) (.ok r) :: post) k → k ≠ K ∧ ∃ x ∈ rs, Names x.revokedBy k)
    (hkeep : ∀ op a x, Made post op → op.Submits (.auth a) → a.trust.issuedFor = K → x ∈ rs → Names x.revokedBy a.issuedBy →
      a.trust.issuedAt.total ≤ (Dur.ofSecs x.revokedAt).total) {cp' : CallParams} {c' : Call} {r' : Res Payload} (he : Event.call cp' c' (.ok r') ∈ post) :
    (∀ w q, r'.payload = .weight w q → Names q K → w = 0) ∧
    (∀ q t, c' = .getAllCerts q t → Names q K → r'.payload = .certs []) ∧
    (∀ x q t, c' = .addTrust x q t → Names q K → r'.payload = .newWeight 0) ∧
    (∀ ds d, r'.payload = .certs ds → d ∈ ds → On d K → ∃ front y z, d.chain = front ++ [y, z] ∧ Names y.issuedFor K) := by
  obtain ⟨z, hz, -⟩ := C125_library h
  obtain ⟨m1, h1, h2⟩ := hz.split _ _ rfl
  have hr1 := h1.reachable .init
  have hsum : offeredIn (pre ++ .call cp (.exportRevocations p) (.ok r) :: post) = offeredIn pre + offeredIn post := by simp [offeredIn, Call.offered]
  have hsum2 : offeredIn (.call cp (.exportRevocations p) (.ok r) :: post) = offeredIn post := by simp [offeredIn, Call.offered]
  rw [hsum] at hn
  have hl1 := h1.length .init (by show 0 + _ + 16 < _; omega)
  rw [show (⟨[], [], []⟩ : Db).relations.length = 0 from rfl] at hl1
  -- the revocations listed are stored
  have hstored : ∀ x ∈ rs, ∃ r, m1.Stored (.revocation r) ∧ r.pk = K ∧ x = Dto.ofRevocation r := by
    obtain ⟨m2, h3, -⟩ := h2.split [_] _ rfl
    rcases h3.single with ⟨x, hx, -⟩ | ⟨-, e⟩ | ⟨op, fs, _, a, d, -, hm, hcall, rfl, -⟩
    · cases hx
    · rw [hr] at e
      cases e
      intro x hx
      cases hx
    · cases hm with
      | exportRevocations hk =>
        cases hK.unique hk
        obtain ⟨l, e, rfl⟩ := M.bind_pure_ok hcall
        cases hr
        intro x hx
        obtain ⟨r, hrl, rfl⟩ := List.mem_map.mp hx
        obtain ⟨h4, h5⟩ := ((C37_revocations_exact (hr1.weather fs).healthy e).2 r).mp hrl
        exact ⟨r, h4, h5, rfl⟩
  -- so the key is shut out at every later moment
  obtain ⟨m, hl, hnm, hcase⟩ := h2.answered hr1 (List.mem_cons_of_mem _ he) (by rw [hsum2]; omega)
  have hrm := hl.reachable hr1
  have hrun : Later (Made (pre ++ .call cp (.exportRevocations p) (.ok r) :: post)) ⟨[], [], []⟩ m :=
    (h1.later.mono fun op ⟨cp, c, o, hm, h⟩ => ⟨cp, c, o, List.mem_append_left _ hm, h⟩).trans
      (hl.mono fun op ⟨cp, c, o, hm, h⟩ => ⟨cp, c, o, List.mem_append_right _ hm, h⟩)
  have hout : ShutOut m K := by
    constructor
    · rcases hf : m.rootFactor K with _ | x
      · rfl
      · exact absurd rfl (hroots K (.of_root hrun (by rw [hf]; rfl))).1
    · intro R hR
      obtain ⟨-, x, hx, hxR⟩ := hroots R (.of_root hrun hR)
      obtain ⟨rv, h3, h4, rfl⟩ := hstored x hx
      have hR' : rv.revokedBy = R := (names_toPeerId hw _).unique hxR
      obtain ⟨⟨r', h5, h6, h7, -⟩, -⟩ := C29_revocation_stays_partial hr1 h3 (hl.mono (by
        rintro op ⟨cp2, c2, o2, hm2, ha2, hmean⟩ a ha hc
        rcases List.mem_cons.mp hm2 with e | hm2
        · cases e
          cases hmean with
          | exportRevocations => cases ha.1
        · refine le_trans (hkeep op a _ ⟨cp2, c2, o2, hm2, ha2, hmean⟩ ha (hc.2.trans h4) hx (by rw [hc.1]; exact names_toPeerId hw _)) ?_
          exact Dur.ofSecs_total_le _))
      exact ⟨r', h5, h6.trans hR', h7.trans h4⟩
  have g := fun now => C113_shut_out_partial hrm hout .refl now
  have position : ∀ {X : PublicKey} {now : Dur} {c : Certificate}, Admissible (m.snapshot now) X c → On (Dto.ofCertificate c) K →
      ∃ front y z, (Dto.ofCertificate c).chain = front ++ [y, z] ∧ Names y.issuedFor K := by
    rintro X now c hc ⟨x, hx, hxK⟩
    obtain ⟨n, hi⟩ := List.getElem?_of_mem hx
    obtain ⟨t, ht, rfl⟩ := List.getElem?_map .. ▸ hi |> Option.map_eq_some_iff.mp
    have hp := hout.position hc ht ((names_toPeerId hw _).unique hxK)
    have hlen : (Dto.ofCertificate c).chain.length = n + 2 := by rw [hp]; exact List.length_map ..
    have hdrop := List.drop_eq_getElem_cons (l := (Dto.ofCertificate c).chain) (i := n) (by omega)
    have hdrop2 := List.drop_eq_getElem_cons (l := (Dto.ofCertificate c).chain) (i := n + 1) (by omega)
    have hdrop3 := List.drop_eq_nil_iff.mpr (show (Dto.ofCertificate c).chain.length ≤ n + 1 + 1 by omega)
    rw [hdrop2, hdrop3] at hdrop
    refine ⟨_, _, _, (hdrop ▸ (List.take_append_drop n _).symm), ?_⟩
    rw [List.getElem?_eq_getElem (by omega)] at hi
    rw [Option.some.inj hi]
    exact hxK
  refine ⟨fun w q hq hqK => ?_, fun q t e hqK => ?_, fun x q t e hqK => ?_, fun ds d hds hd hon => ?_⟩
  · rcases hcase with ⟨y, hy, rfl⟩ | ⟨-, hp⟩ | ⟨op, a, d, -, hm, hcall, rfl⟩
    · cases hy <;> cases hq
    · rw [hq] at hp
      cases c' <;> cases hp <;> rfl
    · cases hm <;> obtain ⟨y, e, rfl⟩ := M.bind_pure_ok hcall <;> try (cases hq; done)
      · rename_i hk
        cases hq
        cases hk.unique hqK
        exact (g _).2.1 _ _ e
      · rename_i hk hk'
        cases hq
        cases hk.unique hqK
        obtain ⟨w', e', -⟩ := Db.weight_spec hrm.healthy.calm (Db.calm_noFaults m) hnm K _
        have h0 := (C113_shut_out_partial (db := m.calm) (hrm.weather []) hout .refl _).2.1 _ _ e'
        have := (C13_weight_from_le_weight hrm.healthy.calm hnm e' ((TrustGraph.weightFrom_transparent _ _ _).ok e)).2
        omega
  · subst e
    rcases hcase with ⟨y, hy, rfl⟩ | ⟨-, hp⟩ | ⟨op, a, d, -, hm, hcall, rfl⟩
    · cases hy
    · exact hp
    · cases hm with
      | getAllCerts hk =>
        cases hk.unique hqK
        obtain ⟨cs, e, rfl⟩ := M.bind_pure_ok hcall
        cases (g _).1 _ _ e
        rfl
  · subst e
    rcases hcase with ⟨y, hy, rfl⟩ | ⟨-, hp⟩ | ⟨op, a, d, -, hm, hcall, rfl⟩
    · cases hy
    · exact hp
    · cases hm with
      | addTrust hx hk =>
        cases hk.unique hqK
        obtain ⟨w, e, rfl⟩ := M.bind_pure_ok hcall
        cases ((g _).2.2.1 _ _ _ e).1
        rfl
  · rcases hcase with ⟨y, hy, rfl⟩ | ⟨-, hp⟩ | ⟨op, a, d, -, hm, hcall, rfl⟩
    · cases hy <;> cases hds
    · rw [hds] at hp
      cases c' <;> cases hp <;> cases hd
    · have hall : ∀ {X now s cs}, TrustGraph.getAllCerts X now m = (.ok cs, s) → ∀ c ∈ cs, Admissible (m.snapshot now) X c :=
        fun e c hc => ((C02_complete_exactly_once hrm.healthy e).2 c).mp hc
      have hfrom : ∀ {X Y now s cs}, TrustGraph.getAllCertsFrom X Y now m = (.ok cs, s) → ∀ c ∈ cs, Admissible (m.snapshot now) X c := by
        intro X Y now s cs e c hc
        obtain ⟨all, _, h1, rfl⟩ := C09_from_selects_partial hrm.healthy e
        exact ((C02_complete_exactly_once hrm.healthy.calm h1).2 c).mp (List.mem_filter.mp hc).1
      cases hm <;> obtain ⟨y, e, rfl⟩ := M.bind_pure_ok hcall <;> try (cases hds; done)
      all_goals
        cases hds
        obtain ⟨c, hc, rfl⟩ := List.mem_map.mp hd
        first
          | exact position (hall e c hc) hon
          | exact position (hfrom e c hc) hon

theorem Later.history {ok : Op → Prop} {db : Db} (h : Later ok ⟨[], [], []⟩ db) : ∃ ops, History ops db ∧ ∀ op ∈ ops, ok op := by
  induction h with
  | refl => exact ⟨[], .init, by simp⟩
  | weather fs _ ih =>
    obtain ⟨ops, h1, h2⟩ := ih
    exact ⟨ops, h1.weather fs, h2⟩
  | step op hop _ ih =>
    obtain ⟨ops, h1, h2⟩ := ih
    refine ⟨ops ++ [op], h1.step op, fun x hx => ?_⟩
    rcases List.mem_append.mp hx with hx | hx
    · exact h2 x hx
    · rw [List.mem_singleton.mp hx]; exact hop

/-- The weight of the same key at two moments, if what happened in between does not concern it. -/
theorem weight_compare {db db' s s' : Db} {k : PublicKey} {t T : UInt64} {w w' : Nat} (hr : Reachable db) (hn : db.relations.length + 16 < 2 ^ 32)
    (h : TrustGraph.weight k (.ofSecs t) db = (.ok w, s)) (h' : TrustGraph.weight k (.ofSecs T) db' = (.ok w', s')) (ht : t ≤ T) (hT : T.toNat < 2 ^ 63)
    (same : ∀ w0 s0, TrustGraph.weight k (.ofSecs T) db.calm = (.ok w0, s0) → w' = w0) : w' ≤ w ∧ (t = T → w' = w) := by
  obtain ⟨w0, h0, -⟩ := Db.weight_spec hr.healthy.calm (Db.calm_noFaults db) hn k (.ofSecs T)
  have hc := (TrustGraph.weight_transparent k _).ok h
  have hle := (C17_time_never_raises_partial hr.healthy.calm (t1 := .ofSecs t) (t2 := .ofSecs T) (by
    have := UInt64.le_iff_toNat_le.mp ht
    simp only [Dur.total, Dur.ofSecs]
    omega) hT k).2 hn w w0 _ _ hc (.inl h0)
  cases same w0 _ h0
  refine ⟨hle, ?_⟩
  rintro rfl
  rw [h0] at hc
  exact Outcome.ok.inj (Prod.ext_iff.mp hc).1

/-- **C127.**  Let `get_weight` be asked twice for a key.  If meanwhile nobody but the key itself has submitted anything and no root has been set, the second answer is not above
the first, and is the same if the time is the same. -/
theorem C127_own_weight {faulty : Prop} {pre mid post : List Event} {cp cp' : CallParams} {p : Str} {K : PublicKey} {t T : UInt64} {r r' : Res Payload}
    {w w' : Nat} {i : Option Instance} {f : Sql.File}
    (h : ServiceRun faulty (pre ++ .call cp (.getWeight p t) (.ok r) :: (mid ++ .call cp' (.getWeight p T) (.ok r') :: post)) i f)
    (hn : offeredIn (pre ++ .call cp (.getWeight p t) (.ok r) :: (mid ++ .call cp' (.getWeight p T) (.ok r') :: post)) + 16 < 2 ^ 32)
    (hK : Names p K) (hs : r.success = true) (hs' : r'.success = true) (hr : r.payload = .weight w p) (hr' : r'.payload = .weight w' p) (ht : t ≤ T)
    (hT : T.toNat < 2 ^ 63)
    (honly : ∀ op, Made mid op → OnlyBy (· = K) op ∧ ∀ u, op.time = some u → u.secs ≤ T) : w' ≤ w ∧ (t = T → w' = w) := by
  obtain ⟨op, op', a, a', db, db', s, s', hre, hn1, hn2, -, -, hm, hm', hc, hc', rfl, rfl, hl, -⟩ := h.between hn hs hs' (fun _ h => by cases h) (fun _ h => by cases h)
  cases hm with
  | getWeight hk =>
    cases hm' with
    | getWeight hk' =>
      cases hk.unique hK
      cases hk'.unique hK
      obtain ⟨x, e, rfl⟩ := M.bind_pure_ok hc
      obtain ⟨x', e', rfl⟩ := M.bind_pure_ok hc'
      cases hr
      cases hr'
      refine weight_compare hre hn1 e e' ht hT fun w0 s0 h0 => ?_
      refine ((C116_own_weight (hre.weather []) (hl.from_calm.mono ?_)).2 hn1 hn2).1 _ _ _ _ h0 e'
      rintro op (rfl | ho)
      · exact ⟨⟨fun q hq => (by cases hq.1), fun _ _ e => (by cases e)⟩, fun u hu => by cases hu; exact asI64_mono ht hT⟩
      · exact ⟨(honly op ho).1, fun u hu => asI64_mono ((honly op ho).2 u hu) hT⟩

/-- **C127**, strangers.  Take keys of which the owner has set none as a root and none is trusted by anybody else.  If meanwhile nobody but these has submitted anything and no root
has been set, then of two answers of `get_weight` for the same key, whichever it is, the second is not above the first, and is the same if the time is the same;
`get_all_certs` returns nothing new, and the same if the time is the same. -/
theorem C127_strangers {faulty : Prop} {S : PublicKey → Prop} {pre mid post : List Event} {cp cp' : CallParams} {c c' : Call} {p : Str} {t T : UInt64} {r r' : Res Payload}
    {i : Option Instance} {f : Sql.File} (h : ServiceRun faulty (pre ++ .call cp c (.ok r) :: (mid ++ .call cp' c' (.ok r') :: post)) i f)
    (hn : offeredIn (pre ++ .call cp c (.ok r) :: (mid ++ .call cp' c' (.ok r') :: post)) + 16 < 2 ^ 32)
    (hs : r.success = true) (hs' : r'.success = true) (ht : t ≤ T) (hT : T.toNat < 2 ^ 63) (hroots : ∀ k, OwnerSet pre k → ¬ S k)
    (hstr : ∀ op a, Made pre op → op.Submits (.auth a) → S a.trust.issuedFor → S a.issuedBy)
    (honly : ∀ op, Made mid op → OnlyBy S op ∧ ∀ u, op.time = some u → u.secs ≤ T) :
    (c = .getWeight p t → c' = .getWeight p T → ∀ w w', r.payload = .weight w p → r'.payload = .weight w' p → w' ≤ w ∧ (t = T → w' = w)) ∧
    (c = .getAllCerts p t → c' = .getAllCerts p T → ∀ ds ds', r.payload = .certs ds → r'.payload = .certs ds' →
      (∀ d ∈ ds', d ∈ ds) ∧ (t = T → ds'.Perm ds)) := by
  have strangers : ∀ {db : Db}, Later (Made pre) ⟨[], [], []⟩ db → Spec.Strangers S db := by
    intro db hl
    refine ⟨fun k hk => ?_, fun a ha hS => ?_⟩
    · rcases hf : db.rootFactor k with _ | x
      · rfl
      · exact absurd hk (hroots k (.of_root hl (by rw [hf]; rfl)))
    · obtain ⟨ops, h1, h2⟩ := hl.history
      obtain ⟨op, ho, q, hq, hv, he⟩ := (C72_provenance h1).1 _ ha
      cases q with
      | revocation => cases he
      | auth a' =>
        cases he
        exact hstr op a' (h2 op ho) ⟨hq, hv⟩ hS
  constructor
  · rintro rfl rfl w w' hr hr'
    obtain ⟨op, op', a, a', db, db', s, s', hre, hn1, hn2, -, -, hm, hm', hc, hc', rfl, rfl, hl, hpre⟩ := h.between hn hs hs' (fun _ h => by cases h) (fun _ h => by cases h)
    cases hm with
    | getWeight hk =>
      cases hm' with
      | getWeight hk' =>
        cases hk.unique hk'
        obtain ⟨x, e, rfl⟩ := M.bind_pure_ok hc
        obtain ⟨x', e', rfl⟩ := M.bind_pure_ok hc'
        cases hr
        cases hr'
        refine weight_compare hre hn1 e e' ht hT fun w0 s0 h0 => ?_
        refine ((C114_strangers_partial (hre.weather []) (strangers (hpre.weather [])) (hl.from_calm.mono ?_)).2.2.2 hn1 hn2).1 _ _ _ _ _ h0 e'
        rintro op (rfl | ho)
        · exact ⟨⟨fun q hq => (by cases hq.1), fun _ _ e => (by cases e)⟩, fun u hu => by cases hu; exact asI64_mono ht hT⟩
        · exact ⟨(honly op ho).1, fun u hu => asI64_mono ((honly op ho).2 u hu) hT⟩
  · rintro rfl rfl ds ds' hr hr'
    obtain ⟨op, op', a, a', db, db', s, s', hre, hn1, hn2, -, -, hm, hm', hc, hc', rfl, rfl, hl, hpre⟩ := h.between hn hs hs' (fun _ h => by cases h) (fun _ h => by cases h)
    cases hm with
    | @getAllCerts _ _ k hk =>
      cases hm' with
      | getAllCerts hk' =>
        cases hk.unique hk'
        obtain ⟨x, e, rfl⟩ := M.bind_pure_ok hc
        obtain ⟨x', e', rfl⟩ := M.bind_pure_ok hc'
        cases hr
        cases hr'
        obtain ⟨⟨x0, e0⟩, -⟩ := C14_cert_queries_succeed (hre.weather []) rfl k k (.ofSecs T)
        have hperm := (C114_strangers_partial (hre.weather []) (strangers (hpre.weather [])) (hl.from_calm.mono (by
          rintro op (rfl | ho)
          · exact ⟨⟨fun q hq => (by cases hq.1), fun _ _ e => (by cases e)⟩, fun u hu => by cases hu; exact asI64_mono ht hT⟩
          · exact ⟨(honly op ho).1, fun u hu => asI64_mono ((honly op ho).2 u hu) hT⟩))).2.1 _ _ _ _ _ (Prod.ext e0 rfl) e'
        have hcalm := (TrustGraph.getAllCerts_transparent k _).ok e
        have hsub := (C17_time_never_raises_partial hre.healthy.calm (t1 := .ofSecs t) (t2 := .ofSecs T) (by
          have := UInt64.le_iff_toNat_le.mp ht
          simp only [Dur.total, Dur.ofSecs]
          omega) hT k).1 _ _ _ _ hcalm (.inl (Prod.ext e0 rfl))
        refine ⟨fun d hd => ?_, ?_⟩
        · obtain ⟨c, hc, rfl⟩ := List.mem_map.mp hd
          exact List.mem_map_of_mem (hsub c (hperm.mem_iff.mp hc))
        · rintro rfl
          have : x0 = x := by
            have h1 : TrustGraph.getAllCerts k (.ofSecs t) db.calm = (.ok x0, _) := Prod.ext e0 rfl
            rw [h1] at hcalm
            exact Outcome.ok.inj (Prod.ext_iff.mp hcalm).1
          rw [this] at hperm
          exact hperm.map _

end TG
