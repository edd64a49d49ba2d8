/-
Histories: the databases that can be produced through the library API on the SQLite storage.
-/
import Verif.Model.Sqlite

namespace TG
variable [Env]

/-- A call of a public `TrustGraph` method (trust_graph.rs:105-399). -/
inductive Op where
  | setRoot (pk : PublicKey) (maxChainLen : Nat)
  | addTrust (trust : Trust) (issuedBy : PublicKey) (now : Dur)
  | add (cert : Certificate) (now : Dur)
  | revoke (r : Revocation)
  | weight (pk : PublicKey) (now : Dur)
  | weightFrom (pk issuer : PublicKey) (now : Dur)
  | getAllCerts (pk : PublicKey) (now : Dur)
  | getAllCertsFrom (pk issuer : PublicKey) (now : Dur)
  | getRevocations (pk : PublicKey)

/-- The database after the call, whatever its outcome. -/
def Op.run : Op → Db → Db
  | .setRoot pk n, db => (TrustGraph.setRoot pk n db).2
  | .addTrust t by' now, db => (TrustGraph.addTrust t by' now db).2
  | .add c now, db => (TrustGraph.add c now db).2
  | .revoke r, db => (TrustGraph.revoke r db).2
  | .weight pk now, db => (TrustGraph.weight pk now db).2
  | .weightFrom pk issuer now, db => (TrustGraph.weightFrom pk issuer now db).2
  | .getAllCerts pk now, db => (TrustGraph.getAllCerts pk now db).2
  | .getAllCertsFrom pk issuer now, db => (TrustGraph.getAllCertsFrom pk issuer now db).2
  | .getRevocations pk, db => (TrustGraph.getRevocations pk db).2

/-- The database after a list of calls. -/
def Op.runAll (ops : List Op) (db : Db) : Db := ops.foldl (fun db op => op.run db) db

/-- The databases produced from an empty one by any calls with any arguments, where at any moment any
schedule of failing SQL statements may be imposed. -/
inductive Reachable : Db → Prop
  | init : Reachable ⟨[], [], []⟩
  | step {db : Db} (op : Op) : Reachable db → Reachable (op.run db)
  | weather {db : Db} (faults : List Bool) : Reachable db → Reachable { db with faults }

theorem Reachable.runAll {db : Db} (h : Reachable db) (ops : List Op) : Reachable (Op.runAll ops db) := by
  induction ops generalizing db with
  | nil => exact h
  | cons op ops ih => exact ih (h.step op)

end TG
