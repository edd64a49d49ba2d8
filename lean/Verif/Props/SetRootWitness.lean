/-
Examples for the hypotheses of C115, in the toy environment.
-/
import Verif.Props.SetRoot
import Verif.Props.ContainmentWitness

namespace TG
open TG.Toy

set_option maxRecDepth 100000

namespace SetRootDemo

/-- Root 1 trusts key 2, which trusts itself and key 3. -/
def db : Db := Op.runAll [.addTrust (trust 2 2 1000 1) (pk 2) (s 1), .addTrust (trust 2 3 1000 1) (pk 2) (s 1)] Small.db

/-- Key 2 becomes a root. -/
def db1 : Db := (TrustGraph.setRoot (pk 2) 12 db).2

def certs (d : Db) : Outcome TrustGraphError (List Certificate) × Db := TrustGraph.getAllCerts (pk 3) (s 10) d

/-- Key 3 gets a second certificate, which is shorter, and its weight rises from 256 to 2048. -/
theorem facts : (TrustGraph.setRoot (pk 2) 12 db).1 = .ok () ∧
    (certs db).1 = .ok [⟨[trust 1 1 1000 1, trust 1 2 1000 1, trust 2 3 1000 1]⟩,
      ⟨[trust 1 1 1000 1, trust 1 2 1000 1, trust 2 2 1000 1, trust 2 3 1000 1]⟩] ∧
    (certs db1).1 = .ok [⟨[trust 2 2 1000 1, trust 2 3 1000 1]⟩, ⟨[trust 1 1 1000 1, trust 1 2 1000 1, trust 2 3 1000 1]⟩,
      ⟨[trust 1 1 1000 1, trust 1 2 1000 1, trust 2 2 1000 1, trust 2 3 1000 1]⟩] ∧
    (TrustGraph.weight (pk 3) (s 10) db).1 = .ok 256 ∧ (TrustGraph.weight (pk 3) (s 10) db1).1 = .ok 2048 := by decide +kernel

end SetRootDemo

open SetRootDemo in
/-- C115: the hypotheses. -/
example : Reachable db ∧ TrustGraph.setRoot (pk 2) 12 db = (.ok (), db1) ∧ ∃ cs cs' s1 s2, TrustGraph.getAllCerts (pk 3) (s 10) db = (.ok cs, s1) ∧
    TrustGraph.getAllCerts (pk 3) (s 10) db1 = (.ok cs', s2) ∧ cs.length = 2 ∧ cs'.length = 3 :=
  ⟨Small.reachable.runAll _, Contain.pair facts.1, _, _, _, _, Contain.pair facts.2.1, Contain.pair facts.2.2.1, rfl, rfl⟩

end TG
