/-
Concrete reachable databases, used by the examples beside the property theorems.
-/
import Verif.Spec.Toy
import Verif.Spec.History
import Verif.Spec.Weight

namespace TG.Demo
open TG.Toy

/-- The keys along a certificate. -/
def keys (c : Certificate) : List Nat := c.chain.map (fun t => (t.issuedFor.raw.headD 0).toNat)

/-- Root 1; trusts 1→1, 1→2, 2→3, 1→3, 3→3 (self-signed, not at the root), 3→2 (a cycle), 3→4; key 4 revokes key 5. -/
def ops : List Op :=
  [.setRoot (pk 1) 10,
   .addTrust (trust 1 1 1000 1) (pk 1) (s 1),
   .addTrust (trust 1 2 1000 1) (pk 1) (s 1),
   .addTrust (trust 2 3 1000 1) (pk 2) (s 1),
   .addTrust (trust 1 3 1000 1) (pk 1) (s 1),
   .addTrust (trust 3 3 1000 1) (pk 3) (s 1),
   .addTrust (trust 3 2 1000 1) (pk 3) (s 1),
   .addTrust (trust 3 4 1000 1) (pk 3) (s 1),
   .revoke (revocation 4 5 1)]

def db : Db := Op.runAll ops ⟨[], [], []⟩

theorem reachable : Reachable db := Reachable.init.runAll ops

set_option maxRecDepth 100000 in
theorem tables : db.relations.length = 8 ∧ db.roots.length = 1 ∧ db.faults = [] := by decide +kernel

/-- Key 4 has four certificates. -/
def certKeys : List (List Nat) := [[1, 3, 4], [1, 2, 3, 4], [1, 3, 3, 4], [1, 2, 3, 3, 4]]

set_option maxRecDepth 100000 in
theorem certs : (match (TrustGraph.getAllCerts (pk 4) (s 10) db).1 with
    | .ok cs => cs.map keys
    | _ => []) = certKeys := by decide +kernel

end TG.Demo
