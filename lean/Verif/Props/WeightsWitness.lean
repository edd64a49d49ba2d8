/-
Examples for C10–C14 and the refutation of C12 at full strength.
-/
import Verif.Props.Weights

namespace TG
open TG.Toy

set_option maxRecDepth 100000

/-- C10–C14: in the demo database (root 1 with `max_chain_len` 10) the weights of keys 1 to 5 are 1024, 512, 512, 256
and 0, and key 4 has weight 128 through key 2. -/
example : Reachable Demo.db ∧ Demo.db.NoFaults ∧ Demo.db.relations.length + 16 < 2 ^ 32 ∧
    [(TrustGraph.weight (pk 1) (s 10) Demo.db).1, (TrustGraph.weight (pk 2) (s 10) Demo.db).1,
      (TrustGraph.weight (pk 3) (s 10) Demo.db).1, (TrustGraph.weight (pk 4) (s 10) Demo.db).1,
      (TrustGraph.weight (pk 5) (s 10) Demo.db).1, (TrustGraph.weightFrom (pk 4) (pk 2) (s 10) Demo.db).1]
      = [.ok 1024, .ok 512, .ok 512, .ok 256, .ok 0, .ok 128] := by
  refine ⟨Demo.reachable, Demo.tables.2.2, ?_, by decide +kernel⟩
  rw [Demo.tables.1]; decide

/-- C10: a root that is not registered yet. -/
example : ∀ row ∈ Demo.db.roots, row.publicKey ≠ keyText (pk 2) := by decide +kernel

namespace F7

/-- Root 1 allows chains of length 1, root 2 of length 10.  Both trust key 3, key 3 trusts key 4.  Then root 2 revokes
key 3. -/
def ops : List Op :=
  [.setRoot (pk 1) 1,
   .setRoot (pk 2) 10,
   .addTrust (trust 1 1 1000 1) (pk 1) (s 1),
   .addTrust (trust 2 2 1000 1) (pk 2) (s 1),
   .addTrust (trust 1 3 1000 1) (pk 1) (s 1),
   .addTrust (trust 2 3 1000 1) (pk 2) (s 1),
   .addTrust (trust 3 4 1000 1) (pk 3) (s 1),
   .revoke (revocation 2 3 5),
   .revoke (revocation 2 4 5)]

def db : Db := Op.runAll ops ⟨[], [], []⟩

def cert : Certificate := ⟨[trust 1 1 1000 1, trust 1 3 1000 1, trust 3 4 1000 1]⟩

theorem facts : (TrustGraph.weight (pk 4) (s 10) db).1 = .ok 1 ∧
    (TrustGraph.getAllCerts (pk 4) (s 10) db).1 = .ok [cert] ∧
    db.rootFactor (pk 4) = none := by decide +kernel

end F7

/-- C12: the hypothesis of the partial theorem holds for root 1 of the demo database. -/
example : Demo.db.rootFactor (trust 1 1 1000 1).issuedFor = some 6 := by decide +kernel

end TG
