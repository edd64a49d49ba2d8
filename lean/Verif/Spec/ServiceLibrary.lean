/-
What a run of the service does to the graph, in terms of calls of the library.
-/
import Verif.Spec.ServiceMachine
import Verif.Spec.Submits

namespace TG.Spec
variable [Env]

/-- How the service reports the outcome of a library call. -/
def report (c : Call) : Outcome TrustGraphError Answer → Outcome Empty (Res Payload)
  | .ok a => .ok ⟨true, none, c.present a⟩
  | .err e => .ok ⟨false, some (.tgError e), c.neutral⟩
  | .panic => .panic
  | .diverge => .diverge

/-- `Acts db tr db'`: in the part `tr` of a run the graph goes from `db` to `db'`, each call of the service being either one call of the library, which it stands for and
which answers what is reported, or none at all: then it is one that only computes something, or it reports no success and a neutral payload, or it panics.  SQL
statements may fail at any moment. -/
inductive Acts (db : Db) : List Event → Db → Prop
  | refl : Acts db [] db
  | weather {tr db'} (faults : List Bool) : Acts db tr db' → Acts db tr { db' with faults }
  | start {tr db'} (b : Bool) : Acts db tr db' → Acts db (tr ++ [.start b]) db'
  | idle {tr db' cp c o} : (∀ r, o = .ok r → (∃ p, Computes c p ∧ r = ⟨true, none, p⟩) ∨ (r.success = false ∧ r.payload = c.neutral)) →
      Acts db tr db' → Acts db (tr ++ [.call cp c o]) db'
  | serve {tr db' cp c op} : Allowed cp c → Means cp c op → Acts db tr db' → Acts db (tr ++ [.call cp c (report c (op.call db').1)]) (op.call db').2

/-- The library calls that the calls in this part of a run stand for, if they were allowed. -/
def Made (tr : List Event) (op : Op) : Prop := ∃ cp c o, Event.call cp c o ∈ tr ∧ Allowed cp c ∧ Means cp c op

end TG.Spec
