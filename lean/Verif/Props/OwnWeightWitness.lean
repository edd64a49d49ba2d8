/-
Example for the hypotheses of C116, in the toy environment.
-/
import Verif.Props.OwnWeight
import Verif.Props.ContainmentWitness

namespace TG
open TG.Toy

set_option maxRecDepth 100000

namespace OwnWeightDemo

/-- Key 2 trusts itself and key 3, trusts the root and then revokes it; somebody forges a trust of the root in key 2. -/
def ops : List Op := [.addTrust (trust 2 2 1000 1) (pk 2) (s 9), .addTrust (trust 2 3 1000 1) (pk 2) (s 9), .addTrust (trust 2 1 1000 1) (pk 2) (s 9),
  .revoke (revocation 2 1 3), .addTrust (trust 3 2 1000 9) (pk 1) (s 10), .weight (pk 2) (s 10)]

def db' : Db := Op.runAll ops Small.db

theorem later : Later (fun op => Spec.OnlyBy (· = pk 2) op ∧ ∀ t, op.time = some t → asI64 t.secs ≤ asI64 (s 10).secs) Small.db db' := by
  have hforged : ¬ (TrustRelation.auth ⟨trust 3 2 1000 9, pk 1⟩).SignatureValid := by
    unfold TrustRelation.SignatureValid
    decide +kernel
  refine .runAll _ ?_ _
  intro op hop
  simp only [ops, List.mem_cons, List.not_mem_nil, or_false] at hop
  rcases hop with rfl | rfl | rfl | rfl | rfl | rfl <;>
    refine ⟨⟨fun q hq => ?_, fun _ _ e => nomatch e⟩, fun t e => ?_⟩ <;>
    first
    | (cases e; decide)
    | exact nomatch e
    | exact absurd hq.1 List.not_mem_nil
    | (obtain ⟨hq, hv⟩ := hq
       rw [List.mem_singleton.mp hq] at hv ⊢
       first | exact absurd hv hforged | rfl)

theorem facts : (TrustGraph.weight (pk 2) (s 10) Small.db).1 = .ok 512 ∧ (TrustGraph.weight (pk 2) (s 10) db').1 = .ok 512 ∧
    (TrustGraph.getAllCerts (pk 2) (s 10) Small.db).1 = .ok [⟨[trust 1 1 1000 1, trust 1 2 1000 1]⟩] ∧
    (TrustGraph.getAllCerts (pk 2) (s 10) db').1 =
      .ok [⟨[trust 1 1 1000 1, trust 1 2 1000 1]⟩, ⟨[trust 1 1 1000 1, trust 1 2 1000 1, trust 2 2 1000 1]⟩] ∧
    db'.relations.length = Small.db.relations.length + 3 := by decide +kernel

end OwnWeightDemo

open OwnWeightDemo in
/-- The hypotheses of C116 are met while key 2 trusts itself and others and revokes the root. -/
example : Reachable Small.db ∧
    Later (fun op => Spec.OnlyBy (· = pk 2) op ∧ ∀ t, op.time = some t → asI64 t.secs ≤ asI64 (s 10).secs) Small.db db' ∧
    Small.db.relations.length + 16 < 2 ^ 32 ∧ db'.relations.length + 16 < 2 ^ 32 ∧ db'.relations ≠ Small.db.relations := by
  have h : Small.db.relations.length + 16 < 2 ^ 32 ∧ db'.relations.length + 16 < 2 ^ 32 ∧ db'.relations ≠ Small.db.relations := by decide +kernel
  exact ⟨Small.reachable, later, h⟩

end TG
