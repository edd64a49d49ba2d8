/-
Examples for the hypotheses of C23–C37 in the toy environment.
-/
import Verif.Props.Relations
import Verif.Props.UpdatesWitness

namespace TG
open TG.Toy

set_option maxRecDepth 100000

namespace Rel

/-- Small's database, where the root has then revoked key 2 at time 20. -/
def db : Db := Op.runAll [.revoke (revocation 1 2 20)] Small.db

theorem reachable : Reachable db := Small.reachable.runAll _

/-- Updates of two pairs: a trust, a later revocation, an older trust, a trust of another pair. -/
def updates : List TrustRelation :=
  [.auth ⟨trust 1 2 1000 10, pk 1⟩, .revocation (revocation 1 2 20), .auth ⟨trust 1 2 1000 15, pk 1⟩,
   .auth ⟨trust 2 1 1000 15, pk 2⟩]

def stored : Db := submitAll (s 1) updates ⟨[], [], []⟩

end Rel

/-- C23, C27, C32, C33, C37: key 2 is revoked; the row of its former trust is gone, and the same trust is refused. -/
example : Rel.db.relations = [Sqlite.toRow (.auth ⟨trust 1 1 1000 1, pk 1⟩), Sqlite.toRow (.revocation (revocation 1 2 20))] ∧
    (TrustGraph.addTrust (trust 1 2 1000 20) (pk 1) (s 30) Rel.db).1 = .ok 512 ∧
    (TrustGraph.addTrust (trust 1 2 1000 20) (pk 1) (s 30) Rel.db).2 = Rel.db ∧
    (TrustGraph.getRevocations (pk 2) Rel.db).1 = .ok [revocation 1 2 20] := by decide +kernel

/-- C24, C25, C26: whole times, different issue times in each pair; the latest of each pair is stored. -/
example : Rel.stored.relations =
      [Sqlite.toRow (.revocation (revocation 1 2 20)), Sqlite.toRow (.auth ⟨trust 2 1 1000 15, pk 2⟩)] := by
  decide +kernel

example : ∀ u ∈ Rel.updates, u.Whole := by
  intro u hu
  simp only [Rel.updates, List.mem_cons, List.not_mem_nil, or_false] at hu
  rcases hu with rfl | rfl | rfl | rfl
  · exact ⟨rfl, rfl⟩
  · rfl
  · exact ⟨rfl, rfl⟩
  · exact ⟨rfl, rfl⟩

/-- C28, C69: a collection that removes one of two trusts and keeps the revocation. -/
def gcDb : Db := submitAll (s 1) [.auth ⟨trust 1 2 50 10, pk 1⟩, .auth ⟨trust 1 3 51 10, pk 1⟩,
  .revocation (revocation 1 4 20)] ⟨[], [], []⟩

example : gcDb.faults = [] ∧ (Storage.removeExpired (s 50) gcDb).2.relations =
      [Sqlite.toRow (.auth ⟨trust 1 3 51 10, pk 1⟩), Sqlite.toRow (.revocation (revocation 1 4 20))] := by
  decide +kernel

end TG
