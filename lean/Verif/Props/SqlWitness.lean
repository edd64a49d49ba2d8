/-
C101: a concrete run on the SQL texts, with a start that fails half way, a restart between calls and a failing statement.
-/
import Verif.Props.Sql
import Verif.Spec.Toy

namespace TG.SqlDemo
open TG.Toy

/-- Make the calls one after the other. -/
def answers : List Op → Sql.File → List (Op × Outcome TrustGraphError Answer)
  | [], _ => []
  | op :: ops, f => (op, (op.callIn (S := Sql.File) f).1) :: answers ops (op.callIn (S := Sql.File) f).2

def after : List Op → Sql.File → Sql.File
  | [], f => f
  | op :: ops, f => after ops (op.callIn (S := Sql.File) f).2

theorem run {faulty : Prop} {tr : List (Op × Outcome TrustGraphError Answer)} {f : Sql.File} (h : SqlRun faulty true tr f) (ops : List Op) :
    SqlRun faulty true (tr ++ answers ops f) (after ops f) := by
  induction ops generalizing tr f with
  | nil => rw [answers, List.append_nil]; exact h
  | cons op ops ih =>
    have := ih (h.call op)
    rw [List.append_assoc] at this
    exact this

/-- The start fails at the second statement. -/
def half : Sql.File := (SqlStorage.createTables ⟨[], [false, true]⟩).2

def ready : Sql.File := (SqlStorage.createTables half).2

def ops : List Op :=
  [.setRoot (pk 1) 10, .add ⟨[trust 1 1 1000 1, trust 1 2 1000 1]⟩ (s 10), .weight (pk 2) (s 10), .revoke (revocation 1 2 5), .weight (pk 2) (s 10)]

def used : Sql.File := after ops ready

set_option maxRecDepth 100000 in
theorem facts : ((SqlStorage.createTables ⟨[], [false, true]⟩).1 = .panic ∧ half.tables.length = 1) ∧
    (SqlStorage.createTables half).1 = .ok () ∧
    (answers ops ready).map (·.2) = [.ok .unit, .ok .unit, .ok (.weight 512), .ok .unit, .ok (.weight 0)] ∧
    (SqlStorage.createTables used).2 = used ∧
    ((Op.weight (pk 2) (s 10)).callIn (S := Sql.File) { used with faults := [false, false, true] }).1 = .err .internalStorageError := by
  decide +kernel

theorem demo : SqlRun True true ([] ++ answers ops ready) used := by
  have h0 : SqlRun True false [] (⟨[], [false, true]⟩ : Sql.File) := .weather (f := ⟨[], []⟩) _ trivial .new
  have h1 := h0.start
  have h2 := h1.start
  rw [show (SqlStorage.createTables (SqlStorage.createTables ⟨[], [false, true]⟩).2).1 = .ok () from facts.2.1] at h2
  exact run h2 ops

/-- The run is one of the reference machine. -/
example : ∃ w, Spec.World.Run True ([] ++ answers ops ready) w := C101_machine demo (by decide +kernel)

example : (SqlStorage.createTables used).2.tables = used.tables := C101_restart demo (.inl rfl)

end TG.SqlDemo
