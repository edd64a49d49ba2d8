/-
C147: examples in the toy environment.
-/
import Verif.Props.Compare
import Verif.Props.Coherent
import Verif.Props.ContainmentWitness

namespace TG.CompareDemo
open TG.Toy

set_option maxRecDepth 100000

/-- Root 1 trusts key 2 until 50, and key 3, which trusts key 2. -/
def told : List Op := [.setRoot (pk 1) 8, .addTrust (trust 1 1 1000 1) (pk 1) (s 2), .addTrust (trust 1 2 50 1) (pk 1) (s 2), .addTrust (trust 1 3 1000 1) (pk 1) (s 2),
  .addTrust (trust 3 2 200 1) (pk 3) (s 2)]

/-- A node that was told this, and one that was also told that root 1 has revoked key 2. -/
def B : Db := Op.runAll told ⟨[], [], []⟩

def A : Db := Op.runAll (told ++ [.revoke (revocation 1 2 5)]) ⟨[], [], []⟩

/-- A node where root 1 was set with a shorter chain length. -/
def C : Db := Op.runAll (.setRoot (pk 1) 3 :: told) ⟨[], [], []⟩

def long : Certificate := ⟨[trust 1 1 1000 1, trust 1 3 1000 1, trust 3 2 200 1]⟩

def short : Certificate := ⟨[trust 1 1 1000 1, trust 1 2 50 1]⟩

/-- What the three answer. -/
theorem answers : (TrustGraph.getAllCerts (pk 2) (s 10) B).1 = .ok [short, long] ∧ (TrustGraph.getAllCerts (pk 2) (s 10) A).1 = .ok [] ∧
    (TrustGraph.getAllCerts (pk 2) (s 10) C).1 = .ok [short, long] ∧ (TrustGraph.getAllCerts (pk 2) (s 60) B).1 = .ok [long] ∧
    (TrustGraph.weight (pk 2) (s 10) B).1 = .ok 128 ∧ (TrustGraph.weight (pk 2) (s 10) A).1 = .ok 0 ∧ (TrustGraph.weight (pk 2) (s 10) C).1 = .ok 4 ∧
    (TrustGraph.weight (pk 2) (s 60) B).1 = .ok 64 := by
  decide +kernel

/-- C147_reason, both ways: the long certificate is missing at `A` since root 1 has revoked key 2; the short one since its trust is gone, too. -/
example : Reachable B ∧ Reachable A ∧ Spec.Obstacle (A.snapshot (s 10)) long ∧ Spec.Obstacle (A.snapshot (s 10)) short := by
  have hB : Reachable B := Reachable.init.runAll _
  have hA : Reachable A := Reachable.init.runAll _
  have e := answers
  refine ⟨hB, hA, (C147_reason hB hA (Outcome.pair_eq e.1) (Outcome.pair_eq e.2.1) long ?_).1 (List.not_mem_nil), (C147_reason hB hA (Outcome.pair_eq e.1)
    (Outcome.pair_eq e.2.1) short ?_).1 (List.not_mem_nil)⟩
  · exact List.mem_cons_of_mem _ (List.mem_cons_self ..)
  · exact List.mem_cons_self ..

example : Spec.Obstacle (A.snapshot (s 10)) long :=
  .revoked 0 2 _ _ (by decide) rfl rfl (by decide) ⟨revocation 1 2 5, ⟨by decide +kernel, by decide +kernel⟩, by decide +kernel, by decide +kernel⟩

/-- C147_lower_weight: the weight of key 2 is lower at `C` since root 1 has a larger factor there. -/
example : (∃ f, B.rootFactor (pk 2) = some f ∧ 128 = 2 ^ (16 - f) ∧ ∀ f', C.rootFactor (pk 2) = some f' → f < f') ∨
    ∃ c ∈ [short, long], 128 = B.certWeight c ∧ (Spec.Obstacle (C.snapshot (s 10)) c ∨
      ∃ k f f', c.keys.head? = some k ∧ B.rootFactor k = some f ∧ C.rootFactor k = some f' ∧ f < f') := by
  have n1 : B.relations.length + 16 < 2 ^ 32 := by decide +kernel
  have n2 : C.relations.length + 16 < 2 ^ 32 := by decide +kernel
  exact C147_lower_weight (w := 128) (w' := 4) (Reachable.init.runAll _) (Reachable.init.runAll _) n1 n2 (Outcome.pair_eq answers.1)
    (Outcome.pair_eq answers.2.2.2.2.1) (Outcome.pair_eq answers.2.2.2.2.2.2.1) (by decide)

/-- C147_more_trust: `B` knows what `A` knows, except the revocation. -/
example : (∀ k f, A.rootFactor k = some f → ∃ f' ≤ f, B.rootFactor k = some f') ∧
    (∀ k t, A.Stored (.auth ⟨t, k⟩) → Spec.Live t (s 10) → B.Stored (.auth ⟨t, k⟩) ∧ Spec.Live t (s 10)) ∧
    (∀ q : Revocation, B.Stored (.revocation q) → ∃ p : Revocation, A.Stored (.revocation p) ∧ p.revokedBy = q.revokedBy ∧ p.pk = q.pk) := by
  have h0 : A.roots = B.roots := by decide +kernel
  have h1 : ∀ row ∈ A.relations, row.relationType = authType → row ∈ B.relations := by decide +kernel
  have h2 : ∀ row ∈ B.relations, row.relationType ≠ revocationType := by decide +kernel
  refine ⟨fun k f h => ⟨f, le_refl _, ?_⟩, fun k t h hl => ⟨⟨h.1, h1 _ h.2 rfl⟩, hl⟩, fun q h => (h2 _ h.2 rfl).elim⟩
  rw [← h]
  exact (Db.rootFactor_congr h0 k).symm

end TG.CompareDemo
