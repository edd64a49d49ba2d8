/-
C142: examples in the toy environment.
-/
import Verif.Props.Upstream
import Verif.Props.DistanceWitness

namespace TG
open TG.Toy Circles
set_option maxRecDepth 100000
set_option synthInstance.maxSize 1024

namespace UpstreamDemo

/-- The four keys of the example. -/
def four (k : PublicKey) : Prop := k = pk 1 ∨ k = pk 2 ∨ k = pk 3 ∨ k = pk 4

theorem issuers : ∀ row ∈ db.relations, row.issuedBy = keyText (pk 1) ∨ row.issuedBy = keyText (pk 2) ∨ row.issuedBy = keyText (pk 3) ∨ row.issuedBy = keyText (pk 4) := by
  decide +kernel

theorem closed : Spec.Closed (db.snapshot (s 10)) four := by
  intro a t h _
  have := issuers _ h.1.2
  exact this.imp keyText_inj (Or.imp keyText_inj (Or.imp keyText_inj keyText_inj))

/-- Key 3 trusts key 5, key 5 trusts key 6, key 4 revokes key 5, key 6 becomes a root with the greatest weight and trusts key 5, and somebody asks. -/
def later : List Op := [.addTrust (trust 3 5 1000 3) (pk 3) (s 5), .addTrust (trust 5 6 1000 3) (pk 5) (s 5), .revoke (revocation 4 5 6), .setRoot (pk 6) 16,
  .addTrust (trust 6 6 1000 3) (pk 6) (s 6), .addTrust (trust 6 5 1000 3) (pk 6) (s 6), .weight (pk 5) (s 7)]

theorem outside : ¬ four (pk 5) ∧ ¬ four (pk 6) := by unfold four; decide

theorem downstream : ∀ op ∈ later, Spec.Downstream four (s 10) op := by
  intro op ho
  simp only [later, List.mem_cons, List.not_mem_nil, or_false] at ho
  rcases ho with rfl | rfl | rfl | rfl | rfl | rfl | rfl
  all_goals refine ⟨fun q hq => ?_, fun k n e => ?_, fun t e => ?_⟩
  all_goals first
    | (cases e; done)
    | (cases e; first | decide | exact outside.2)
    | (have := hq.1
       simp only [Op.offers, List.mem_singleton] at this
       subst this
       first | exact outside.1 | exact outside.2)
    | exact (nomatch hq.1)

end UpstreamDemo
open UpstreamDemo

/-- C142: the hypotheses hold for these calls. -/
example : Later (Spec.Downstream four (s 10)) db (Op.runAll later db) := .runAll _ downstream _

/-- C142: the relations and the root are stored, keys 5 and 6 get a weight, and the others keep theirs. -/
example : (Op.runAll later db).relations.length = 12 ∧ (Op.runAll later db).roots.length = 2 ∧
    [1, 2, 3, 4, 5, 6].map (fun n => (TrustGraph.weight (pk n) (s 10) db).1) = [.ok 256, .ok 128, .ok 128, .ok 64, .ok 0, .ok 0] ∧
    [1, 2, 3, 4, 5, 6].map (fun n => (TrustGraph.weight (pk n) (s 10) (Op.runAll later db)).1) = [.ok 256, .ok 128, .ok 128, .ok 64, .ok 32768, .ok 65536] := by
  decide +kernel

/-- C142: a trust in one of the four keys does matter. -/
example : (TrustGraph.weight (pk 4) (s 10) (Op.runAll (later ++ [.addTrust (trust 6 4 1000 3) (pk 6) (s 6)]) db)).1 = .ok 32768 := by decide +kernel

end TG
