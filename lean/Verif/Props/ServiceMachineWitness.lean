/-
C107, C108: a concrete run of the service, with refused calls, a trap, a restart and a failing statement.
-/
import Verif.Props.ServiceMachine
import Verif.Props.ServiceWitness

namespace TG.ServiceRunDemo
open TG.Toy TG.ServiceDemo

/-- Make the calls one after the other. -/
def events : List (CallParams × Call) → Instance → List Event
  | [], _ => []
  | (cp, c) :: cs, i => .call cp c (c.exported cp i).1 :: events cs (c.exported cp i).2

def after : List (CallParams × Call) → Instance → Instance
  | [], i => i
  | (cp, c) :: cs, i => after cs (c.exported cp i).2

theorem run {faulty : Prop} {tr : List Event} {i : Instance} {f : Sql.File} (h : ServiceRun faulty tr (some i) f) (cs : List (CallParams × Call)) :
    ∃ f', ServiceRun faulty (tr ++ events cs i) (some (after cs i)) f' := by
  induction cs generalizing tr i f with
  | nil => rw [events, List.append_nil]; exact ⟨f, h⟩
  | cons p cs ih =>
    have := ih (h.call p.1 p.2)
    rw [List.append_assoc] at this
    exact this

/-- Calls by the owner. -/
def owner : CallParams := { ctx [] with initPeerId := peer 1 }

/-- Calls with the clock of the host as the argument with the number. -/
def timed (n : Nat) : CallParams := ctx (List.replicate n [literal] ++ [[clock]])

def calls : List (CallParams × Call) :=
  [(owner, .setRoot (peer 1) 10), (ctx [], .setRoot (peer 9) 10), (timed 2, .addTrust (Dto.ofTrust (trust 1 1 1000 1)) (peer 1) 10),
   (timed 2, .addTrust (Dto.ofTrust (trust 1 2 1000 1)) (peer 1) 10), (timed 2, .addTrust (Dto.ofTrust (trust 9 2 1000 1)) (peer 1) 10),
   (timed 1, .getWeight (peer 2) 10), (ctx [[literal], [literal]], .getWeight (peer 2) 10)]

/-- The calls after key 9 has sent an empty text. -/
def attack : List (CallParams × Call) :=
  [(ctx [], .insertCertRaw [] 10), (timed 1, .getWeight (peer 2) 10), (owner, .setRoot (peer 1) 10), (ctx [], .setRoot (peer 9) 10),
   (ctx [], .getRevocationBytes (peer 2) 5)]

def first : Instance := ⟨false, (SqlStorage.createTables ⟨[], []⟩).2⟩

def stuck : Instance := after attack (after calls first)

def again : Instance := ⟨false, stuck.file⟩

/-- The result seen from outside. -/
def seen : Event → Option (Bool × Option ServiceError × Option Nat)
  | .call _ _ (.ok r) => some (r.success, r.error, match r.payload with | .weight w _ => some w | .newWeight w => some w | _ => none)
  | _ => none

set_option maxRecDepth 100000
set_option synthInstance.maxSize 1024

/-- The calls with their results, the effect of the attack, and a call after the restart. -/
theorem facts : ((SqlStorage.createTables ⟨[], []⟩).1 = .ok () ∧ (SqlStorage.createTables stuck.file).1 = .ok () ∧
      (SqlStorage.createTables stuck.file).2 = stuck.file) ∧
    ((events calls first).map seen, (events attack (after calls first)).map seen, (events [(timed 1, .getWeight (peer 2) 10)] again).map seen) =
      ([some (true, none, none), some (false, some .notOwner, none), some (true, none, some 1024), some (true, none, some 512),
          some (false, some (.tgError (.trustVerificationError (.signatureError .ed25519))), some 0), some (true, none, some 512),
          some (false, some .invalidTimestampTetraplet, some 0)],
        [none, none, none, some (false, some .notOwner, none), some (true, none, none)],
        [some (true, none, some 512)]) := by
  decide +kernel

theorem startModule_ok {f : Sql.File} (h : (SqlStorage.createTables f).1 = .ok ()) :
    startModule f = (some ⟨false, (SqlStorage.createTables f).2⟩, (SqlStorage.createTables f).2) := by
  unfold startModule
  rcases e : SqlStorage.createTables f with ⟨o, f'⟩
  rw [e] at h
  cases (show o = .ok () from h)
  rfl

theorem restart {tr : List Event} {i : Instance} {f : Sql.File} (h : ServiceRun False tr (some i) f) (hf : i.file = f)
    (h1 : (SqlStorage.createTables i.file).1 = .ok ()) (h2 : (SqlStorage.createTables i.file).2 = i.file) :
    ServiceRun False (tr ++ [.start true]) (some ⟨false, i.file⟩) i.file := by
  subst hf
  have h3 := h.start
  rw [startModule_ok h1, h2] at h3
  exact h3

/-- The run: a start, some calls, the attack and what follows, a restart, a call. -/
theorem demo : ∃ f, ServiceRun False ([.start true] ++ events calls first ++ events attack (after calls first) ++ [.start true] ++
    events [(timed 1, .getWeight (peer 2) 10)] again) (some (after [(timed 1, .getWeight (peer 2) 10)] again)) f := by
  have h0 : ServiceRun False _ _ _ := ServiceRun.new.start
  rw [startModule_ok facts.1.1] at h0
  obtain ⟨f1, h1⟩ := run h0 calls
  obtain ⟨f2, h2⟩ := run h1 attack
  exact run (restart h2 ((h2.machine (by decide +kernel)).2.1 _ rfl) facts.1.2.1 facts.1.2.2) _

/-- The whole run is one of the reference machine. -/
example : ∃ w s, Spec.Serves False ([.start true] ++ events calls first ++ events attack (after calls first) ++ [.start true] ++
    events [(timed 1, .getWeight (peer 2) 10)] again) w s := by
  obtain ⟨f, h⟩ := demo
  exact C107_service h (by decide +kernel)

/-- Before the attack every call gets a record; after it, a restart helps. -/
example : (∀ cp c o, .call cp c o ∈ [.start true] ++ events calls first → ∃ r, o = .ok r) ∧ ∃ x, (startModule stuck.file).1 = some x ∧
    ∃ r, ((Call.getWeight (peer 2) 10).exported (timed 1) x).1 = .ok r := by
  have h0 : ServiceRun False _ _ _ := ServiceRun.new.start
  rw [startModule_ok facts.1.1] at h0
  obtain ⟨f1, h1⟩ := run h0 calls
  obtain ⟨f2, h2⟩ := run h1 attack
  refine ⟨C108_records_partial h1 (by decide +kernel) ?_, ?_⟩
  · intro cp text t o hm
    simp [events, calls] at hm
  · obtain ⟨x, hx, h⟩ := C108_restart_partial h2 (by decide +kernel)
    have hf : stuck.file = f2 := (h2.machine (by decide +kernel)).2.1 _ rfl
    rw [← hf] at hx
    exact ⟨x, hx, h _ _ (by simp) (by decide +kernel)⟩

/-- The attack stops the service for everyone. -/
example {pre : List Event} {i : Option Instance} {f : Sql.File} {o o1 : Outcome Empty (Res Payload)} {cp : CallParams}
    (h : ServiceRun True (pre ++ .call cp (.insertCertRaw [] 10) o :: [.call (timed 1) (.getWeight (peer 2) 10) o1]) i f) : o1 = .panic :=
  (C108_stuck_fails h (.inl (by decide)) (by simp)).2 _ _ _ (.head _) trivial

end TG.ServiceRunDemo
