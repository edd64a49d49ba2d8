/-
Runs of the service's storage on a database file, with the SQL texts of the source.
-/
import Verif.Model.SqlStorage
import Verif.Spec.Ops

namespace TG
variable [Env]

/-- The call of the library on any storage, with its answer. -/
def Op.callIn {S σ : Type} [Storage S σ] : Op → M S TrustGraphError Answer
  | .setRoot pk n => do let _ ← TrustGraph.setRoot pk n; pure .unit
  | .addTrust t by' now => do let w ← TrustGraph.addTrust t by' now; pure (.weight w)
  | .add c now => do let _ ← TrustGraph.add c now; pure .unit
  | .revoke r => do let _ ← TrustGraph.revoke r; pure .unit
  | .weight pk now => do let w ← TrustGraph.weight pk now; pure (.weight w)
  | .weightFrom pk issuer now => do let w ← TrustGraph.weightFrom pk issuer now; pure (.weight w)
  | .getAllCerts pk now => do let cs ← TrustGraph.getAllCerts pk now; pure (.certs cs)
  | .getAllCertsFrom pk issuer now => do let cs ← TrustGraph.getAllCertsFrom pk issuer now; pure (.certs cs)
  | .getRevocations pk => do let rs ← TrustGraph.getRevocations pk; pure (.revocations rs)

/-- A run on a database file that is new at the beginning.  The service is started, which executes `create_tables`, at any moment and any number of times; it is up if
that succeeded.  While it is up it answers calls.  Only if `faulty`, SQL statements may fail, at any moment, also during the start. -/
inductive SqlRun (faulty : Prop) : Bool → List (Op × Outcome TrustGraphError Answer) → Sql.File → Prop
  | new : SqlRun faulty false [] ⟨[], []⟩
  | start {up tr f} : SqlRun faulty up tr f →
      SqlRun faulty (match (SqlStorage.createTables f).1 with | .ok _ => true | _ => false) tr (SqlStorage.createTables f).2
  | call {tr f} (op : Op) : SqlRun faulty true tr f →
      SqlRun faulty true (tr ++ [(op, (op.callIn (S := Sql.File) f).1)]) (op.callIn (S := Sql.File) f).2
  | weather {up tr f} (faults : List Bool) : faulty → SqlRun faulty up tr f → SqlRun faulty up tr { f with faults }

end TG
