/-
Property C144: how long an answer can be relied on.
-/
import Verif.Props.ServiceUpstream
import Verif.Props.Change

namespace TG
open Spec SqlStorage

section
variable [Env]

/-- **C144.**  Take keys that are trusted by one another only; things are submitted only about other keys, and roots set only from among the others.  Then at a later time
`get_all_certs` returns, for each of them, exactly the certificates of before whose trusts are all still live; and a weight is never higher than before, and the same
exactly as long as the key has it as a root or one of the certificates that give it is live. -/
theorem C144_until_expiry {S : PublicKey → Prop} {db db' : Db} {now T : Dur} (hr : Reachable db) (hT : asI64 now.secs ≤ asI64 T.secs)
    (hS : Spec.Closed (db.snapshot now) S) (hl : Later (Spec.Downstream S T) db db') {X : PublicKey} (hX : S X) {cs cs' : List Certificate} {s s' : Db}
    (h : TrustGraph.getAllCerts X now db = (.ok cs, s)) (h' : TrustGraph.getAllCerts X T db' = (.ok cs', s')) :
    (∀ c, c ∈ cs' ↔ c ∈ cs ∧ ∀ t ∈ c.chain, Spec.Live t T) ∧
    (db.relations.length + 16 < 2 ^ 32 → db'.relations.length + 16 < 2 ^ 32 →
      ∀ w w' r r', TrustGraph.weight X now db = (.ok w, r) → TrustGraph.weight X T db' = (.ok w', r') →
        w' ≤ w ∧ (w' = w ↔ w = 0 ∨ (∃ f, db.rootFactor X = some f ∧ w = 2 ^ (16 - f)) ∨
          ∃ c ∈ cs, db.certWeight c = w ∧ ∀ t ∈ c.chain, Spec.Live t T)) := by
  have hh := hr.healthy
  have hh' := (hl.reachable hr).healthy
  have hST : Spec.Closed (db.snapshot T) S := fun a t ht hs => hS a t ⟨ht.1, lt_of_le_of_lt hT ht.2⟩ hs
  have ha := Upstream.Agree.of_later hl
  obtain ⟨⟨x0, e0⟩, -⟩ := C14_cert_queries_succeed (hr.weather []) rfl X X T
  have h0 : TrustGraph.getAllCerts X T db.calm = (.ok x0, _) := Prod.ext e0 rfl
  have hperm := (C142_upstream (hr.weather []) (show Spec.Closed (db.calm.snapshot T) S from hST) hl.from_calm hX).1 _ _ _ _ h0 h'
  have hcerts : ∀ c, c ∈ cs' ↔ c ∈ cs ∧ ∀ t ∈ c.chain, Spec.Live t T := fun c =>
    hperm.mem_iff.trans (C140_time (hr.weather []) hT ((TrustGraph.getAllCerts_transparent X now).ok h) h0 c)
  refine ⟨hcerts, fun hn hn' w w' r r' hw hw' => ?_⟩
  have hc := (C02_complete_exactly_once hh h).2
  have hc' := (C02_complete_exactly_once hh' h').2
  have g := weight_ok hh hn hw
  have g' := weight_ok hh' hn' hw'
  have worth : ∀ c, c ∈ cs' → db'.certWeight c = db.certWeight c := fun c hm =>
    (ha.symm.admissible (ha.closed hST) hX ((hc' c).mp hm)).2.symm
  have hle : w' ≤ w := by
    rcases g'.1 with e | ⟨f, hf, e⟩ | ⟨c, hc1, e⟩
    · rw [e]; exact Nat.zero_le _
    · exact g.2 (.inr (.inl ⟨f, (ha.root X hX).symm.trans hf, e⟩))
    · have hm := (hc' c).mpr hc1
      exact g.2 (.inr (.inr ⟨c, (hc c).mp ((hcerts c).mp hm).1, e.trans (worth c hm)⟩))
  refine ⟨hle, ?_, ?_⟩
  · rintro rfl
    rcases g'.1 with e | ⟨f, hf, e⟩ | ⟨c, hc1, e⟩
    · exact .inl e
    · exact .inr (.inl ⟨f, (ha.root X hX).symm.trans hf, e⟩)
    · have hm := (hc' c).mpr hc1
      exact .inr (.inr ⟨c, ((hcerts c).mp hm).1, (worth c hm).symm.trans e.symm, ((hcerts c).mp hm).2⟩)
  · rintro (e | ⟨f, hf, e⟩ | ⟨c, hm, e, hlive⟩)
    · omega
    · exact le_antisymm hle (g'.2 (.inr (.inl ⟨f, (ha.root X hX).trans hf, e⟩)))
    · have hm' := (hcerts c).mpr ⟨hm, hlive⟩
      exact le_antisymm hle (g'.2 (.inr (.inr ⟨c, (hc' c).mp hm', e.symm.trans (worth c hm').symm⟩)))

end

variable [LawfulEnv]

/-- **C144**, through the service.  What `get_all_certs` returned at time `t` tells what it returns at a later time `T`: exactly the certificates on which all expiry dates are
after `T`; and of a peer that the owner has not set as a root, whether its weight is above 0 at `T`. -/
theorem C144_service {faulty : Prop} {S : PublicKey → Prop} {pre mid post : List Event} {cp cp' : CallParams} {c' : Call} {p : Str} {K : PublicKey} {t T : UInt64}
    {r r' : Res Payload} {ds : List CertDto} {i : Option Instance} {f : Sql.File}
    (h : ServiceRun faulty (pre ++ .call cp (.getAllCerts p t) (.ok r) :: (mid ++ .call cp' c' (.ok r') :: post)) i f)
    (hn : offeredIn (pre ++ .call cp (.getAllCerts p t) (.ok r) :: (mid ++ .call cp' c' (.ok r') :: post)) + 16 < 2 ^ 32)
    (hs : r.success = true) (hs' : r'.success = true) (hr : r.payload = .certs ds) (ht : t ≤ T) (hT : T.toNat < 2 ^ 63) (hK : Names p K) (hS : S K)
    (hclosed : ∀ op a, Made pre op → op.Submits (.auth a) → S a.trust.issuedFor → S a.issuedBy)
    (hmid : ∀ op, Made mid op → (∀ q, op.Submits q → ¬ S q.issuedFor) ∧ (∀ k n, op = .setRoot k n → ¬ S k) ∧ ∀ u, op.time = some u → u.secs ≤ T) :
    (c' = .getAllCerts p T → ∃ ds', r'.payload = .certs ds' ∧ ∀ d, d ∈ ds' ↔ d ∈ ds ∧ ∀ x ∈ d.chain, T < x.expiresAt) ∧
    (c' = .getWeight p T → ¬ OwnerSet pre K → ∃ w, r'.payload = .weight w p ∧ (0 < w ↔ ∃ d ∈ ds, ∀ x ∈ d.chain, T < x.expiresAt)) := by
  have closed : ∀ {db : Db} {now : Dur}, Later (Made pre) ⟨[], [], []⟩ db → Spec.Closed (db.snapshot now) S := by
    intro db now hl a x hx hSx
    obtain ⟨ops, h1, h2⟩ := hl.history
    obtain ⟨op, ho, q, hq, hv, he⟩ := (C72_provenance h1).1 _ hx.1
    cases q with
    | revocation => cases he
    | auth a' =>
      cases he
      exact hclosed op a' (h2 op ho) ⟨hq, hv⟩ hSx
  have htT : asI64 t ≤ asI64 T := asI64_mono ht hT
  have down : ∀ k op, op = .getAllCerts k (.ofSecs t) ∨ Made mid op → Spec.Downstream S (.ofSecs T) op := by
    rintro k op (rfl | ho)
    · exact ⟨fun q hq => (by cases hq.1), fun k n e => (by cases e), fun u hu => by cases hu; exact htT⟩
    · exact ⟨(hmid op ho).1, (hmid op ho).2.1, fun u hu => asI64_mono ((hmid op ho).2.2 u hu) hT⟩
  -- For a trust that is live at `t`, being live at `T` is a matter of its date.
  have live : ∀ x : Trust, Spec.Live x (.ofSecs t) → (Spec.Live x (.ofSecs T) ↔ T < x.expiresAt.secs) := by
    intro x hx
    have h1 : asI64 t < asI64 x.expiresAt.secs := hx
    have h2 : t.toNat < 2 ^ 63 := lt_of_le_of_lt (UInt64.le_iff_toNat_le.mp ht) hT
    have h3 : x.expiresAt.secs.toNat < 2 ^ 63 := by
      by_contra hge
      rw [asI64_of_lt h2] at h1
      unfold asI64 at h1
      rw [if_neg hge] at h1
      have := x.expiresAt.secs.toNat_lt
      omega
    refine ⟨fun h => ?_, fun h => asI64_strict h h3⟩
    have h4 : asI64 T < asI64 x.expiresAt.secs := h
    rw [asI64_of_lt hT, asI64_of_lt h3] at h4
    exact UInt64.lt_iff_toNat_lt.mpr (by omega)
  have chain : ∀ {db : Db} {k : PublicKey} {c : Certificate}, Admissible (db.snapshot (.ofSecs t)) k c →
      ((∀ x ∈ c.chain, Spec.Live x (.ofSecs T)) ↔ ∀ x ∈ (Dto.ofCertificate c).chain, T < x.expiresAt) := by
    intro db k c hc
    have hl : ∀ x ∈ c.chain, Spec.Live x (.ofSecs t) := by
      intro x hx
      obtain ⟨i, hi, rfl⟩ := List.mem_iff_getElem.mp hx
      rcases i with _ | i
      · exact (hc.linked.root _ (List.getElem?_eq_getElem hi)).2.2
      · exact (hc.linked.link i _ _ (List.getElem?_eq_getElem (by omega)) (List.getElem?_eq_getElem hi)).2
    show _ ↔ ∀ x ∈ c.chain.map Dto.ofTrust, _
    rw [List.forall_mem_map]
    exact forall_congr' fun x => forall_congr' fun hx => live x (hl x hx)
  constructor
  · rintro rfl
    obtain ⟨op, op', a, a', db, db', s, s', hre, hn1, hn2, -, -, hm, hm', hc, hc', rfl, rfl, hl, hpre⟩ := h.between hn hs hs' (fun _ h => by cases h) (fun _ h => by cases h)
    cases hm with
    | getAllCerts hk =>
      cases hm' with
      | getAllCerts hk' =>
        cases hk.unique hK
        cases hk'.unique hK
        obtain ⟨x, e, rfl⟩ := M.bind_pure_ok hc
        obtain ⟨x', e', rfl⟩ := M.bind_pure_ok hc'
        cases hr
        have hmem := (C02_complete_exactly_once hre.healthy e).2
        have hc0 := (C144_until_expiry hre htT (closed hpre) (hl.mono (down K)) hS e e').1
        refine ⟨_, rfl, fun d => ⟨fun hd => ?_, ?_⟩⟩
        · obtain ⟨c, hc, rfl⟩ := List.mem_map.mp hd
          obtain ⟨h1, h2⟩ := (hc0 c).mp hc
          exact ⟨List.mem_map_of_mem h1, (chain ((hmem c).mp h1)).mp h2⟩
        · rintro ⟨hd, hx⟩
          obtain ⟨c, hc, rfl⟩ := List.mem_map.mp hd
          exact List.mem_map_of_mem ((hc0 c).mpr ⟨hc, (chain ((hmem c).mp hc)).mpr hx⟩)
  · rintro rfl hno
    obtain ⟨op, op', a, a', db, db', s, s', hre, hn1, hn2, -, -, hm, hm', hc, hc', rfl, rfl, hl, hpre⟩ := h.between hn hs hs' (fun _ h => by cases h) (fun _ h => by cases h)
    cases hm with
    | getAllCerts hk =>
      cases hm' with
      | getWeight hk' =>
        cases hk.unique hK
        cases hk'.unique hK
        obtain ⟨x, e, rfl⟩ := M.bind_pure_ok hc
        obtain ⟨w, e', rfl⟩ := M.bind_pure_ok hc'
        cases hr
        have hre' := hl.reachable hre
        obtain ⟨⟨x0, e0⟩, -⟩ := C14_cert_queries_succeed (hre'.weather []) rfl K K (.ofSecs T)
        have hmem := (C02_complete_exactly_once hre.healthy e).2
        have hmem0 := (C02_complete_exactly_once (hre'.weather []).healthy (Prod.ext e0 rfl)).2
        have hc0 := (C144_until_expiry hre htT (closed hpre) (.weather [] (hl.mono (down K))) hS e (Prod.ext e0 rfl)).1
        have hroot : db'.rootFactor K = none := by
          rw [(Upstream.Agree.of_later (hl.mono (down K))).root K hS]
          rcases hf : db.rootFactor K with _ | y
          · rfl
          · exact absurd (OwnerSet.of_root hpre (by rw [hf]; rfl)) hno
        have g := weight_ok hre'.healthy hn2 e'
        refine ⟨w, rfl, fun hw => ?_, ?_⟩
        · rcases g.1 with e1 | ⟨f, hf, -⟩ | ⟨c, hc1, -⟩
          · omega
          · rw [hroot] at hf
            cases hf
          · obtain ⟨h1, h2⟩ := (hc0 c).mp ((hmem0 c).mpr hc1)
            exact ⟨_, List.mem_map_of_mem h1, (chain ((hmem c).mp h1)).mp h2⟩
        · rintro ⟨d, hd, hx⟩
          obtain ⟨c, hc, rfl⟩ := List.mem_map.mp hd
          have hadm := (hmem0 c).mp ((hc0 c).mpr ⟨hc, (chain ((hmem c).mp hc)).mpr hx⟩)
          have hle := g.2 (.inr (.inr ⟨c, hadm, rfl⟩))
          refine lt_of_lt_of_le ?_ hle
          exact certWeight_pos hadm

end TG
