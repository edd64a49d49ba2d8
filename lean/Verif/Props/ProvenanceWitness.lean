/-
Refutation of C71 and concrete cases for C71 and C72.
-/
import Verif.Props.Provenance

namespace TG.ProvenanceDemo
open TG.Toy

/-- Root 1 trusts itself and, since second 10, key 2; at second 10 key 1 also revokes key 2. -/
def ops : List Op :=
  [.setRoot (pk 1) 10, .addTrust (trust 1 1 1000 1) (pk 1) (s 10), .revoke (revocation 1 2 10)]

def db : Db := Op.runAll ops ⟨[], [], []⟩

theorem reachable : Reachable db := Reachable.init.runAll ops

/-- The trust signed by key 1 as issued at second 10, presented as issued half a second later. -/
def shifted : Trust := { trust 1 2 1000 10 with issuedAt := ⟨10, 500000000⟩ }

set_option maxRecDepth 100000 in
theorem revoked : Sqlite.toRow (.revocation (revocation 1 2 10)) ∈ db.relations := by decide +kernel

set_option maxRecDepth 100000 in
/-- The trust with its true time is ignored … -/
theorem stale_ignored :
    Sqlite.toRow (.auth ⟨trust 1 2 1000 10, pk 1⟩) ∉ (TrustGraph.addTrust (trust 1 2 1000 10) (pk 1) (s 11) db).2.relations := by
  decide +kernel

set_option maxRecDepth 100000 in
/-- … but shifted by half a second it is accepted, and stored with its true time. -/
theorem shifted_stored :
    Sqlite.toRow (.auth ⟨trust 1 2 1000 10, pk 1⟩) ∈ (TrustGraph.addTrust shifted (pk 1) (s 11) db).2.relations := by
  decide +kernel

/-- **C71** fails (F17): a trust signed as issued not after the revocation overrides it, because fractions of seconds are not
signed. -/
theorem C71_override_fails : ¬ C71_statement := by
  intro h
  have e : (revocation 1 2 10).revokedBy = pk 1 := rfl
  have := h db (revocation 1 2 10) shifted (s 11) reachable ⟨rfl, revoked⟩ rfl (trust 1 2 1000 10)
  rw [e] at this
  have := this ⟨⟨rfl, rfl⟩, shifted_stored⟩ rfl
  revert this
  decide

/-- C71 (partial), C72: a later trust overrides the revocation; a history. -/
def later : Db := (TrustGraph.addTrust (trust 1 2 1000 20) (pk 1) (s 21) db).2

set_option maxRecDepth 100000 in
theorem later_stored : Sqlite.toRow (.auth ⟨trust 1 2 1000 20, pk 1⟩) ∈ later.relations := by decide +kernel

example : later.Stored (.auth ⟨trust 1 2 1000 20, pk 1⟩) ∧ (trust 1 2 1000 20).issuedAt.Whole ∧
    db.Stored (.revocation (revocation 1 2 10)) := ⟨⟨⟨rfl, rfl⟩, later_stored⟩, rfl, ⟨rfl, revoked⟩⟩

example : History (ops ++ [.addTrust (trust 1 2 1000 20) (pk 1) (s 21)]) later :=
  .step _ (((History.init.step _).step _).step _)

end TG.ProvenanceDemo
