/-
Property C143: what keys say about themselves, and what is said downstream, as seen through the service.
-/
import Verif.Props.ServiceLibrary
import Verif.Props.Upstream

namespace TG
open Spec SqlStorage
variable [LawfulEnv]

/-- **C143.**  Take keys that are trusted by one another only.  If meanwhile things have been submitted only about other keys, and roots set only from among the others, then of two
answers of `get_weight` for one of them the second is not above the first, and is the same if the time is the same; `get_all_certs` returns nothing new, and the same if
the time is the same; and the exported revocations are the same. -/
theorem C143_upstream {faulty : Prop} {S : PublicKey → Prop} {pre mid post : List Event} {cp cp' : CallParams} {c c' : Call} {p : Str} {K : PublicKey} {t T : UInt64}
    {r r' : Res Payload} {i : Option Instance} {f : Sql.File} (h : ServiceRun faulty (pre ++ .call cp c (.ok r) :: (mid ++ .call cp' c' (.ok r') :: post)) i f)
    (hn : offeredIn (pre ++ .call cp c (.ok r) :: (mid ++ .call cp' c' (.ok r') :: post)) + 16 < 2 ^ 32)
    (hs : r.success = true) (hs' : r'.success = true) (ht : t ≤ T) (hT : T.toNat < 2 ^ 63) (hK : Names p K) (hS : S K)
    (hclosed : ∀ op a, Made pre op → op.Submits (.auth a) → S a.trust.issuedFor → S a.issuedBy)
    (hmid : ∀ op, Made mid op → (∀ q, op.Submits q → ¬ S q.issuedFor) ∧ (∀ k n, op = .setRoot k n → ¬ S k) ∧ ∀ u, op.time = some u → u.secs ≤ T) :
    (c = .getWeight p t → c' = .getWeight p T → ∀ w w', r.payload = .weight w p → r'.payload = .weight w' p → w' ≤ w ∧ (t = T → w' = w)) ∧
    (c = .getAllCerts p t → c' = .getAllCerts p T → ∀ ds ds', r.payload = .certs ds → r'.payload = .certs ds' →
      (∀ d ∈ ds', d ∈ ds) ∧ (t = T → ds'.Perm ds)) ∧
    (c = .exportRevocations p → c' = .exportRevocations p → ∀ rs rs', r.payload = .revocations rs → r'.payload = .revocations rs' → rs'.Perm rs) := by
  have closed : ∀ {db : Db} {now : Dur}, Later (Made pre) ⟨[], [], []⟩ db → Spec.Closed (db.snapshot now) S := by
    intro db now hl a x hx hSx
    obtain ⟨ops, h1, h2⟩ := hl.history
    obtain ⟨op, ho, q, hq, hv, he⟩ := (C72_provenance h1).1 _ hx.1
    cases q with
    | revocation => cases he
    | auth a' =>
      cases he
      exact hclosed op a' (h2 op ho) ⟨hq, hv⟩ hSx
  have down : ∀ {op0 : Op}, (∀ q, ¬ op0.Submits q) → (∀ k n, op0 ≠ .setRoot k n) → (∀ u, op0.time = some u → u.secs ≤ T) →
      ∀ op, op = op0 ∨ Made mid op → Spec.Downstream S (.ofSecs T) op := by
    rintro op0 h1 h2 h3 op (rfl | ho)
    · exact ⟨fun q hq => absurd hq (h1 q), fun k n e => absurd e (h2 k n), fun u hu => asI64_mono (h3 u hu) hT⟩
    · exact ⟨(hmid op ho).1, (hmid op ho).2.1, fun u hu => asI64_mono ((hmid op ho).2.2 u hu) hT⟩
  refine ⟨?_, ?_, ?_⟩
  · rintro rfl rfl w w' hr hr'
    obtain ⟨op, op', a, a', db, db', s, s', hre, hn1, hn2, -, -, hm, hm', hc, hc', rfl, rfl, hl, hpre⟩ := h.between hn hs hs' (fun _ h => by cases h) (fun _ h => by cases h)
    cases hm with
    | getWeight hk =>
      cases hm' with
      | getWeight hk' =>
        cases hk.unique hK
        cases hk'.unique hK
        obtain ⟨x, e, rfl⟩ := M.bind_pure_ok hc
        obtain ⟨x', e', rfl⟩ := M.bind_pure_ok hc'
        cases hr
        cases hr'
        refine weight_compare hre hn1 e e' ht hT fun w0 s0 h0 => ?_
        exact ((C142_upstream (hre.weather []) (closed (hpre.weather [])) (hl.from_calm.mono
          (down (fun q hq => by cases hq.1) (fun _ _ e => by cases e) fun u hu => by cases hu; exact ht)) hS).2.2.2 hn1 hn2).1 _ _ _ _ h0 e'
  · rintro rfl rfl ds ds' hr hr'
    obtain ⟨op, op', a, a', db, db', s, s', hre, hn1, hn2, -, -, hm, hm', hc, hc', rfl, rfl, hl, hpre⟩ := h.between hn hs hs' (fun _ h => by cases h) (fun _ h => by cases h)
    cases hm with
    | @getAllCerts _ _ k hk =>
      cases hm' with
      | getAllCerts hk' =>
        cases hk.unique hK
        cases hk'.unique hK
        obtain ⟨x, e, rfl⟩ := M.bind_pure_ok hc
        obtain ⟨x', e', rfl⟩ := M.bind_pure_ok hc'
        cases hr
        cases hr'
        obtain ⟨⟨x0, e0⟩, -⟩ := C14_cert_queries_succeed (hre.weather []) rfl K K (.ofSecs T)
        have hperm := (C142_upstream (hre.weather []) (closed (hpre.weather [])) (hl.from_calm.mono
          (down (fun q hq => by cases hq.1) (fun _ _ e => by cases e) fun u hu => by cases hu; exact ht)) hS).1 _ _ _ _ (Prod.ext e0 rfl) e'
        have hcalm := (TrustGraph.getAllCerts_transparent K _).ok e
        have hsub := (C17_time_never_raises_partial hre.healthy.calm (t1 := .ofSecs t) (t2 := .ofSecs T) (by
          have := UInt64.le_iff_toNat_le.mp ht
          simp only [Dur.total, Dur.ofSecs]
          omega) hT K).1 _ _ _ _ hcalm (.inl (Prod.ext e0 rfl))
        refine ⟨fun d hd => ?_, ?_⟩
        · obtain ⟨c, hc, rfl⟩ := List.mem_map.mp hd
          exact List.mem_map_of_mem (hsub c (hperm.mem_iff.mp hc))
        · rintro rfl
          have : x0 = x := by
            have h1 : TrustGraph.getAllCerts K (.ofSecs t) db.calm = (.ok x0, _) := Prod.ext e0 rfl
            rw [h1] at hcalm
            exact Outcome.ok.inj (Prod.ext_iff.mp hcalm).1
          rw [this] at hperm
          exact hperm.map _
  · rintro rfl rfl rs rs' hr hr'
    obtain ⟨op, op', a, a', db, db', s, s', hre, hn1, hn2, -, -, hm, hm', hc, hc', rfl, rfl, hl, hpre⟩ := h.between hn hs hs' (fun _ h => by cases h) (fun _ h => by cases h)
    cases hm with
    | exportRevocations hk =>
      cases hm' with
      | exportRevocations hk' =>
        cases hk.unique hK
        cases hk'.unique hK
        obtain ⟨x, e, rfl⟩ := M.bind_pure_ok hc
        obtain ⟨x', e', rfl⟩ := M.bind_pure_ok hc'
        cases hr
        cases hr'
        exact ((C142_upstream hre (closed hpre) (hl.mono
          (down (fun q hq => by cases hq.1) (fun _ _ e => by cases e) fun u hu => by cases hu)) hS).2.2.1 _ _ _ _ e e').map _

/-- **C143**, what keys say about themselves.  If meanwhile keys that the owner has not set as roots have submitted things about themselves only, and no root has been set, then
of two answers of `get_weight` for the same key, whichever it is, the second is not above the first, and is the same if the time is the same. -/
theorem C143_self_talk {faulty : Prop} {pre mid post : List Event} {cp cp' : CallParams} {p : Str} {t T : UInt64} {r r' : Res Payload} {w w' : Nat}
    {i : Option Instance} {f : Sql.File}
    (h : ServiceRun faulty (pre ++ .call cp (.getWeight p t) (.ok r) :: (mid ++ .call cp' (.getWeight p T) (.ok r') :: post)) i f)
    (hn : offeredIn (pre ++ .call cp (.getWeight p t) (.ok r) :: (mid ++ .call cp' (.getWeight p T) (.ok r') :: post)) + 16 < 2 ^ 32)
    (hs : r.success = true) (hs' : r'.success = true) (hr : r.payload = .weight w p) (hr' : r'.payload = .weight w' p) (ht : t ≤ T) (hT : T.toNat < 2 ^ 63)
    (hmid : ∀ op, Made mid op → (∀ q, op.Submits q → q.issuedBy = q.issuedFor ∧ ¬ OwnerSet pre q.issuedBy) ∧ (∀ k n, op ≠ .setRoot k n) ∧
      ∀ u, op.time = some u → u.secs ≤ T) : w' ≤ w ∧ (t = T → w' = w) := by
  obtain ⟨op, op', a, a', db, db', s, s', hre, hn1, hn2, -, -, hm, hm', hc, hc', rfl, rfl, hl, hpre⟩ := h.between hn hs hs' (fun _ h => by cases h) (fun _ h => by cases h)
  cases hm with
  | @getWeight _ _ K hk =>
    cases hm' with
    | getWeight hk' =>
      cases hk'.unique hk
      obtain ⟨x, e, rfl⟩ := M.bind_pure_ok hc
      obtain ⟨x', e', rfl⟩ := M.bind_pure_ok hc'
      cases hr
      cases hr'
      refine weight_compare hre hn1 e e' ht hT fun w0 s0 h0 => ?_
      refine (C141_self_talk (hre.weather []) (hl.from_calm.mono ?_) hn1 hn2 K).1 _ _ _ _ h0 e'
      rintro op (rfl | ho)
      · exact ⟨fun q hq => (by cases hq.1), fun _ _ e => (by cases e), fun u hu => by cases hu; exact asI64_mono ht hT⟩
      · refine ⟨fun q hq => ⟨((hmid op ho).1 q hq).1, ?_⟩, (hmid op ho).2.1, fun u hu => asI64_mono ((hmid op ho).2.2 u hu) hT⟩
        rcases hf : db.calm.rootFactor q.issuedBy with _ | x
        · exact hf
        · exact absurd (OwnerSet.of_root (hpre.weather []) (by rw [show ({ db with faults := [] } : Db) = db.calm from rfl, hf]; rfl)) ((hmid op ho).1 q hq).2

end TG
