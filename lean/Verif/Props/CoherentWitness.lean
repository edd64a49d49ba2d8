/-
Examples for C137 and C138.
-/
import Verif.Props.Coherent
import Verif.Props.Growth
import Verif.Props.ChainLengthWitness

namespace TG
open TG.Toy

set_option maxRecDepth 100000
set_option synthInstance.maxSize 1024

namespace TwoRoots

/-- Two roots trust key 3, which trusts key 4; the first root is set once more, a forged trust is refused, and one trust is renewed. -/
def ops : List Op := [.setRoot (pk 1) 8, .setRoot (pk 2) 4, .setRoot (pk 1) 9, .addTrust (trust 1 1 1000 1) (pk 1) (s 2), .addTrust (trust 2 2 1000 1) (pk 2) (s 2),
  .addTrust (trust 1 3 1000 1) (pk 1) (s 2), .addTrust (trust 2 3 1000 1) (pk 2) (s 2), .addTrust (trust 3 4 1000 1) (pk 3) (s 2),
  .addTrust (trust 7 4 1000 1) (pk 2) (s 2), .addTrust (trust 3 4 1000 2) (pk 3) (s 3)]

def db : Db := Op.runAll ops ⟨[], [], []⟩

theorem reachable : Reachable db := Reachable.init.runAll ops

theorem noFaults : db.NoFaults := by show db.faults = []; decide +kernel

/-- The certificates of key 4: through the first root and through the second. -/
def first : Certificate := ⟨[trust 1 1 1000 1, trust 1 3 1000 1, trust 3 4 1000 2]⟩
def second : Certificate := ⟨[trust 2 2 1000 1, trust 2 3 1000 1, trust 3 4 1000 2]⟩

end TwoRoots

open TwoRoots

/-- C137: the hypotheses hold; the weight of key 4 is its weight through the first root, greater than that through the second; it has one certificate through each. -/
example : Reachable TwoRoots.db ∧ TwoRoots.db.NoFaults ∧ TwoRoots.db.relations.length + 16 < 2 ^ 32 := ⟨reachable, noFaults, by decide +kernel⟩

example : (TrustGraph.weight (pk 4) (s 10) TwoRoots.db).1 = .ok 64 ∧ (TrustGraph.weightFrom (pk 4) (pk 1) (s 10) TwoRoots.db).1 = .ok 64 ∧
    (TrustGraph.weightFrom (pk 4) (pk 2) (s 10) TwoRoots.db).1 = .ok 4 ∧ (TrustGraph.weightFrom (pk 4) (pk 7) (s 10) TwoRoots.db).1 = .ok 0 ∧
    (TrustGraph.getAllCerts (pk 4) (s 10) TwoRoots.db).1 = .ok [first, second] ∧
    (TrustGraph.getAllCertsFrom (pk 4) (pk 1) (s 10) TwoRoots.db).1 = .ok [first] ∧
    (TrustGraph.getAllCertsFrom (pk 4) (pk 2) (s 10) TwoRoots.db).1 = .ok [second] ∧
    (TrustGraph.getAllCertsFrom (pk 4) (pk 4) (s 10) TwoRoots.db).1 = .ok [first, second] ∧
    (TrustGraph.certificatesWeightFactor [first, second] TwoRoots.db).1 = .ok (some 10) ∧
    (TrustGraph.certificatesWeightFactor [second] TwoRoots.db).1 = .ok (some 14) := by decide +kernel

/-- C137: a root's own weight may exceed that of its certificates, and it is not counted by `weight_from`. -/
example : (TrustGraph.weight (pk 1) (s 10) TwoRoots.db).1 = .ok 256 ∧ (TrustGraph.weightFrom (pk 1) (pk 1) (s 10) TwoRoots.db).1 = .ok 0 := by decide +kernel

/-- C138: seven relations have been handed over, six of them with valid signatures, for five pairs: there are five rows.  Three calls of `set_root`, for two keys:
three rows. -/
example : History TwoRoots.ops TwoRoots.db := History.init.runAll TwoRoots.ops

example : (TwoRoots.ops.flatMap Op.offers).length = 7 ∧ TwoRoots.db.relations.length = 5 ∧ TwoRoots.db.roots.length = 3 := by decide +kernel

/-- C138: a query after the expiry date removes rows; a forged trust adds none, a new valid one adds one. -/
example : (Op.run (.weight (pk 4) (s 1000)) TwoRoots.db).relations.length = 0 ∧
    (Op.run (.addTrust (trust 7 4 1000 1) (pk 1) (s 10)) TwoRoots.db).relations.length = 5 ∧
    (Op.run (.addTrust (trust 1 4 1000 1) (pk 1) (s 10)) TwoRoots.db).relations.length = 6 := by decide +kernel

end TG
