/-
A run for C99, with answers of many kinds.
-/
import Verif.Props.Machine
import Verif.Spec.Toy

namespace TG.MachineDemo
open TG.Toy
set_option maxRecDepth 100000

/-- The calls with their answers. -/
def answers : List Op → Db → List (Op × Outcome TrustGraphError Answer)
  | [], _ => []
  | op :: ops, db => (op, (op.call db).1) :: answers ops (op.call db).2

/-- The database after the calls. -/
def after : List Op → Db → Db
  | [], db => db
  | op :: ops, db => after ops (op.call db).2

theorem trace {faulty : Prop} {tr : List (Op × Outcome TrustGraphError Answer)} {db : Db} (h : Trace faulty tr db) (ops : List Op) :
    Trace faulty (tr ++ answers ops db) (after ops db) := by
  induction ops generalizing tr db with
  | nil => rw [answers, List.append_nil]; exact h
  | cons op ops ih =>
    have := ih (h.step op)
    rw [List.append_assoc] at this
    exact this

/-- Root 1 trusts 2, 2 trusts 3; a trust with a wrong issuer is refused; 1 revokes 3; then 3 has lost its weight, and nobody has revoked 2. -/
def ops : List Op :=
  [.setRoot (pk 1) 10, .addTrust (trust 1 1 1000 1) (pk 1) (s 10), .add ⟨[trust 1 1 1000 1, trust 1 2 1000 1, trust 2 3 1000 1]⟩ (s 10),
   .weight (pk 3) (s 11), .getAllCerts (pk 3) (s 11), .addTrust (trust 1 4 1000 1) (pk 2) (s 12), .revoke (revocation 1 3 13), .weight (pk 3) (s 13),
   .getRevocations (pk 3), .weightFrom (pk 2) (pk 1) (s 13), .weight (pk 2) (s 1000)]

/-- The answers. -/
theorem answers_eq : (answers ops ⟨[], [], []⟩).map (·.2) =
    [.ok .unit, .ok (.weight 1024), .ok .unit, .ok (.weight 256), .ok (.certs [⟨[trust 1 1 1000 1, trust 1 2 1000 1, trust 2 3 1000 1]⟩]),
     .err (.trustVerificationError (.signatureError .ed25519)), .ok .unit, .ok (.weight 0), .ok (.revocations [revocation 1 3 13]),
     .ok (.weight 512), .ok (.weight 0)] := by decide +kernel

/-- C99: such a run exists, and is a run of the machine. -/
example : Spec.World.Run False (answers ops ⟨[], [], []⟩) (after ops ⟨[], [], []⟩).world :=
  C99_refines (trace .start ops) (by decide +kernel)

/-- C99: a run in which the last statement of adding a certificate fails: the first trust has been added, the second has not. -/
def faulty : Db := { (⟨[], [], []⟩ : Db) with faults := [false, false, false, false, false, false, false, false, false, false, false, false, true] }

theorem faulty_answers : (answers [.setRoot (pk 1) 10, .add ⟨[trust 1 1 1000 1, trust 1 2 1000 1]⟩ (s 10)] faulty).map (·.2) =
    [.ok .unit, .err .internalStorageError] ∧
    (after [.setRoot (pk 1) 10, .add ⟨[trust 1 1 1000 1, trust 1 2 1000 1]⟩ (s 10)] faulty).relations.length = 1 := by decide +kernel

example : Trace True ([] ++ answers [.setRoot (pk 1) 10, .add ⟨[trust 1 1 1000 1, trust 1 2 1000 1]⟩ (s 10)] faulty)
    (after [.setRoot (pk 1) 10, .add ⟨[trust 1 1 1000 1, trust 1 2 1000 1]⟩ (s 10)] faulty) :=
  trace (.weather _ trivial .start) _

end TG.MachineDemo
