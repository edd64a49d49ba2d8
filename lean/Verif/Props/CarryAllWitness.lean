/-
Example for the hypotheses of C118, and that revocations must not be carried before the certificates, in the toy environment.
-/
import Verif.Props.CarryAll
import Verif.Props.CarryWitness
import Verif.Props.CertsWitness

namespace TG
open TG.Toy

set_option maxRecDepth 100000

namespace CarryDemo

/-- What `A` returns as revocations of keys: one, of key 4 by key 2. -/
def rs : List Revocation := [revocation 2 4 5]

theorem revocations : ∀ p ∈ cs, ∀ k ∈ p.1.keys, (TrustGraph.getRevocations k A).1 = .ok (if k = pk 4 then rs else []) := by decide +kernel

theorem onCert : ∃ p ∈ cs, pk 4 ∈ p.1.keys := by decide +kernel

theorem carriedRevocations : Spec.CarriedRevocations A cs rs where
  returned r hr := by
    obtain ⟨p, hp, hk⟩ := onCert
    exact ⟨pk 4, rs, _, pair (by rw [revocations p hp _ hk, if_pos rfl]), hr⟩
  complete p hp k hk := by
    refine ⟨_, _, pair (revocations p hp k hk), fun r hr => ?_⟩
    split at hr
    · exact hr
    · cases hr

/-- Unlike without the revocation, key 7 has weight 16 as on `A`. -/
theorem all_carried : (revokeAll rs (addAll cs B).2).1 = .ok () ∧ (TrustGraph.weight (pk 7) (s 10) (revokeAll rs (addAll cs B).2).2).1 = .ok 16 ∧
    (TrustGraph.getAllCerts (pk 7) (s 30) (revokeAll rs (addAll cs B).2).2).1 = .ok certs := by decide +kernel

end CarryDemo

open CarryDemo in
/-- The hypotheses of C118. -/
example : Reachable A ∧ Reachable B ∧ B.NoFaults ∧ Spec.Carried A B (s 10) cs ∧ Spec.CarriedRevocations A cs rs ∧
    (cs.map (·.1.chain.length)).sum + rs.length + 16 < 2 ^ 32 ∧ (∀ c ∈ certs, ∃ p ∈ cs, p.1 = c) ∧
    TrustGraph.getAllCerts (pk 7) (s 10) A = (.ok certs, (TrustGraph.getAllCerts (pk 7) (s 10) A).2) ∧ A.relations.length + 16 < 2 ^ 32 := by
  have h : (cs.map (·.1.chain.length)).sum + rs.length + 16 < 2 ^ 32 ∧ (∀ c ∈ certs, ∃ p ∈ cs, p.1 = c) := by decide +kernel
  exact ⟨reachableA, reachableB, noFaults, carried, carriedRevocations, h.1, h.2, pair facts.1, facts.2.2.2.2⟩

namespace F2

/-- A new node with the same root. -/
def new : Db := Op.runAll [.setRoot (pk 1) 10] ⟨[], [], []⟩

theorem revoked : (TrustGraph.getRevocations (pk 3) db).1 = .ok [revocation 1 3 5] := by decide +kernel

end F2

/-- The certificates must be added first: after the revocation of an issuer, `add` skips the last trust of a certificate that `A` returned (F2), and reports
success. -/
theorem C118_order_matters :
    ∃ (A B B' B'' : Db) (asked : Dur) (c : Certificate) (k k' : PublicKey) (r : Revocation) (s₁ s₂ s₃ : Db), Reachable A ∧ Reachable B ∧ B.NoFaults ∧
      A.roots = B.roots ∧ B.relations = [] ∧
      TrustGraph.getAllCerts k asked A = (.ok [c], s₁) ∧ TrustGraph.getRevocations k' A = (.ok [r], s₂) ∧
      TrustGraph.revoke r B = (.ok (), B') ∧ TrustGraph.add c asked B' = (.ok (), B'') ∧ TrustGraph.getAllCerts k asked B'' = (.ok [], s₃) := by
  have h : F2.db.roots = F2.new.roots ∧ F2.new.relations = [] ∧ F2.new.faults = [] ∧ (TrustGraph.revoke (revocation 1 3 5) F2.new).1 = .ok () ∧
      (TrustGraph.add F2.cert (s 10) (TrustGraph.revoke (revocation 1 3 5) F2.new).2).1 = .ok () ∧
      (TrustGraph.getAllCerts (pk 4) (s 10) (TrustGraph.add F2.cert (s 10) (TrustGraph.revoke (revocation 1 3 5) F2.new).2).2).1 = .ok [] := by
    decide +kernel
  obtain ⟨h1, h2, h3, h4, h5, h6⟩ := h
  exact ⟨F2.db, F2.new, _, _, s 10, F2.cert, pk 4, pk 3, revocation 1 3 5, _, _, _, Reachable.init.runAll _, Reachable.init.runAll _, h3, h1, h2,
    CarryDemo.pair F2.returned, CarryDemo.pair F2.revoked, CarryDemo.pair h4, CarryDemo.pair h5, CarryDemo.pair h6⟩

end TG
