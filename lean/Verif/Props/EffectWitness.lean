/-
Refutation of C76 at full strength and concrete cases, in the toy environment.
-/
import Verif.Props.Effect
import Verif.Props.RelationsWitness

namespace TG
open TG.Toy

set_option maxRecDepth 100000

namespace F21

/-- Small's database (root 1 trusts key 2 since time 1), where the root revokes key 2 within the same second. -/
def db : Db := (TrustGraph.revoke (revocation 1 2 1) Small.db).2

theorem accepted : (TrustGraph.revoke (revocation 1 2 1) Small.db).1 = .ok () := by decide +kernel

theorem still_stored : Sqlite.toRow (.auth ⟨trust 1 2 1000 1, pk 1⟩) ∈ db.relations := by decide +kernel

/-- Key 2 keeps its weight, and the revocation is nowhere. -/
theorem no_effect : (TrustGraph.weight (pk 2) (s 10) db).1 = .ok 512 ∧ (TrustGraph.getRevocations (pk 2) db).1 = .ok [] := by
  decide +kernel

end F21

/-- **C76 fails** (F21): a revocation dated in the same second as the trust it is meant for is accepted and silently dropped. -/
theorem C76_revoke_takes_effect_fails : ¬ C76_statement := fun h =>
  h Small.db F21.db (revocation 1 2 1) Small.reachable (Prod.ext F21.accepted rfl) (trust 1 2 1000 1)
    ⟨⟨rfl, rfl⟩, F21.still_stored⟩ rfl (Nat.le_refl _)

/-- C76: a revocation that takes effect, and a trust that replaces an older revocation. -/
example : (TrustGraph.revoke (revocation 1 2 20) Small.db).1 = .ok () ∧
    Sqlite.toRow (.revocation (revocation 1 2 20)) ∈ Rel.db.relations ∧
    (TrustGraph.addTrust (trust 1 2 1000 25) (pk 1) (s 30) Rel.db).1 = .ok 512 ∧
    Sqlite.toRow (.auth ⟨trust 1 2 1000 25, pk 1⟩)
      ∈ (TrustGraph.addTrust (trust 1 2 1000 25) (pk 1) (s 30) Rel.db).2.relations := by decide +kernel

end TG
