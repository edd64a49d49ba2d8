/-
Example for the hypotheses of C119, and that not every certificate can be added again, in the toy environment.
-/
import Verif.Props.WrongClock
import Verif.Props.CarryAllWitness

namespace TG
open TG.Toy

set_option maxRecDepth 100000

namespace CarryDemo

/-- Somebody asks for the weight of key 6 at time 2000, when all trusts have expired. -/
def wrong : Db := (Op.weight (pk 6) (s 2000)).run A

theorem until2000 : Spec.QueriesUntil (s 2000) (.weight (pk 6) (s 2000)) := ⟨trivial, fun t h => by cases h; exact le_rfl⟩

theorem wrong_later : Later (Spec.QueriesUntil (s 2000)) A wrong := .step _ until2000 .refl

/-- At time 10 nothing is left, but for the revocation. -/
theorem wrong_facts : (TrustGraph.getAllCerts (pk 7) (s 10) wrong).1 = .ok [] ∧ (TrustGraph.weight (pk 7) (s 10) wrong).1 = .ok 0 ∧
    (TrustGraph.getRevocations (pk 4) wrong).1 = .ok rs ∧ wrong.faults = [] ∧
    wrong.relations.length + (cs.map (·.1.chain.length)).sum + 16 < 2 ^ 32 := by decide +kernel

/-- After adding the certificates again, all is as before. -/
theorem repaired : (addAll cs wrong).1 = .ok () ∧ (TrustGraph.getAllCerts (pk 7) (s 10) (addAll cs wrong).2).1 = .ok certs ∧
    (TrustGraph.weight (pk 7) (s 10) (addAll cs wrong).2).1 = .ok 16 := by decide +kernel

theorem limitA : ∀ p ∈ cs, ∀ t ∈ p.1.chain[0]?, ∀ f ∈ A.rootFactor t.issuedFor, p.1.chain.length ≤ 16 - f + 1 := by decide +kernel

theorem notBoth : ∀ p ∈ cs, pk 2 ∉ p.1.keys ∨ pk 4 ∉ p.1.keys := by decide +kernel

theorem kept : Spec.Kept A (s 10) cs where
  returned p hp := ⟨pk 7, certs, _, pair facts.1, (List.of_mem_zip hp).1⟩
  limit p hp t f ht hf := limitA p hp t ht f hf
  unrevoked p hp := by
    rintro i j a b hij ha hb ⟨r, hs, e1, e2⟩
    have hb' : b.issuedFor ∈ p.1.keys := List.mem_map_of_mem (List.mem_of_getElem? hb)
    have ha' : a.issuedFor ∈ p.1.keys := List.mem_map_of_mem (List.mem_of_getElem? ha)
    have h1 : r ∈ (if b.issuedFor = pk 4 then rs else []) :=
      ((C37_revocations_exact reachableA.healthy (pair (revocations p hp _ hb'))).2 r).mpr ⟨hs, e2⟩
    split at h1
    · rename_i h4
      rw [show r = revocation 2 4 5 from List.mem_singleton.mp h1] at e1
      rcases notBoth p hp with h | h
      · exact h ((show pk 2 = a.issuedFor from e1) ▸ ha')
      · exact h (h4 ▸ hb')
    · cases h1
  live p hp q hq t ht := live p hp q hq t ht
  time := time

end CarryDemo

open CarryDemo in
/-- The hypotheses of C119. -/
example : Reachable A ∧ Later (Spec.QueriesUntil (s 2000)) A wrong ∧ wrong.NoFaults ∧ Spec.Kept A (s 10) cs ∧
    wrong.relations.length + (cs.map (·.1.chain.length)).sum + 16 < 2 ^ 32 ∧
    TrustGraph.getAllCerts (pk 7) (s 10) A = (.ok certs, (TrustGraph.getAllCerts (pk 7) (s 10) A).2) ∧ (∀ c ∈ certs, ∃ p ∈ cs, p.1 = c) := by
  have h : ∀ c ∈ certs, ∃ p ∈ cs, p.1 = c := by decide +kernel
  exact ⟨reachableA, wrong_later, wrong_facts.2.2.2.1, kept, wrong_facts.2.2.2.2, pair facts.1, h⟩

/-- Not every certificate can be added again: if an issuer on it has been revoked after them, as C119 does not allow, it is returned (F2), but after a query
with a wrong time `add` does not bring it back, although it reports success. -/
theorem C119_not_revoked :
    ∃ (db db' db'' : Db) (T asked : Dur) (c : Certificate) (k : PublicKey) (s₁ s₂ : Db), Reachable db ∧ Later (Spec.QueriesUntil T) db db' ∧ db'.NoFaults ∧
      TrustGraph.getAllCerts k asked db = (.ok [c], s₁) ∧ TrustGraph.add c asked db' = (.ok (), db'') ∧
      TrustGraph.getAllCerts k asked db'' = (.ok [], s₂) := by
  have h : ((Op.weight (pk 6) (s 2000)).run F2.db).faults = [] ∧
      (TrustGraph.add F2.cert (s 10) ((Op.weight (pk 6) (s 2000)).run F2.db)).1 = .ok () ∧
      (TrustGraph.getAllCerts (pk 4) (s 10) (TrustGraph.add F2.cert (s 10) ((Op.weight (pk 6) (s 2000)).run F2.db)).2).1 = .ok [] := by decide +kernel
  exact ⟨F2.db, _, _, s 2000, s 10, F2.cert, pk 4, _, _, Reachable.init.runAll _, .step _ CarryDemo.until2000 .refl, h.1,
    CarryDemo.pair F2.returned, CarryDemo.pair h.2.1, CarryDemo.pair h.2.2⟩

end TG
