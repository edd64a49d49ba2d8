/-
C117 fails for certificates that cannot be imported at once, and an example for its hypotheses, in the toy environment.
-/
import Verif.Props.Repeat
import Verif.Props.ImportWitness

namespace TG
open TG.Toy

set_option maxRecDepth 100000

namespace RepeatDemo

/-- Root 1 trusts key 2, and for a short time key 4, which trusts key 3. -/
def db : Db := Op.runAll [.setRoot (pk 1) 10, .addTrust (trust 1 1 1000 1) (pk 1) (s 10), .addTrust (trust 1 2 1000 1) (pk 1) (s 10),
  .addTrust (trust 1 4 20 1) (pk 1) (s 10), .addTrust (trust 4 3 1000 1) (pk 4) (s 10)] ⟨[], [], []⟩

theorem reachable : Reachable db := .runAll .init _

/-- Key 3 calls itself a root and trusts key 2, which trusts key 4. -/
def cert : Certificate := ⟨[trust 3 3 1000 1, trust 3 2 1000 1, trust 2 4 1000 1]⟩

theorem facts : db.relations.length = 4 ∧
    (Op.call (.add cert (s 30)) { db with faults := [] }).1 = .ok .unit ∧
    Sqlite.toRow (.auth ⟨trust 3 2 1000 1, pk 3⟩) ∉ (Op.call (.add cert (s 30)) { db with faults := [] }).2.relations ∧
    Sqlite.toRow (.auth ⟨trust 3 2 1000 1, pk 3⟩) ∈
      (Op.call (.add cert (s 30)) { Spec.attempts (.add cert (s 30)) [[]] db with faults := [] }).2.relations := by decide +kernel

end RepeatDemo

open RepeatDemo in
/-- Adding a certificate a second time may store trusts that were not stored the first time: a later trust of the certificate may give weight to the issuer
of an earlier one (F36). -/
theorem C117_fails : ¬ C117_statement := by
  intro h
  obtain ⟨h1, -, h2, h3⟩ := facts
  have hoff : (Op.add cert (s 30)).offers.length = 3 := by decide +kernel
  have := (h (.add cert (s 30)) db [[]] reachable (by rw [h1, hoff]; decide)).2.1 (.auth ⟨trust 3 2 1000 1, pk 3⟩)
  exact h2 (this.mp ⟨⟨rfl, rfl⟩, h3⟩).2

open RepeatDemo in
/-- The hypotheses of C117 are met by an attempt to add a certificate that fails after a part of it has been stored, and one that succeeds. -/
example : Reachable Demo.db ∧
    Demo.db.relations.length + ([List.replicate 20 false ++ [true], []].length + 1) * (Op.add Demo.newCert (s 10)).offers.length + 16 < 2 ^ 32 ∧
    (∀ c now, Op.add Demo.newCert (s 10) = .add c now → Spec.Importable Demo.db c now) ∧
    (Op.call (.add Demo.newCert (s 10)) { Demo.db with faults := List.replicate 20 false ++ [true] }).1 = .err .internalStorageError ∧
    (Spec.attempts (.add Demo.newCert (s 10)) [List.replicate 20 false ++ [true]] Demo.db).relations.length = Demo.db.relations.length + 1 ∧
    (Spec.attempts (.add Demo.newCert (s 10)) [List.replicate 20 false ++ [true], []] Demo.db).relations.length = Demo.db.relations.length + 2 := by
  have h1 : Demo.db.relations.length = 8 := by decide +kernel
  have h2 : (Op.add Demo.newCert (s 10)).offers.length = 3 := by decide +kernel
  refine ⟨Demo.reachable, by rw [h1, h2]; decide, fun c now e => ?_, ?_⟩
  · cases e
    exact Demo.newCert_importable
  · decide +kernel

end TG
