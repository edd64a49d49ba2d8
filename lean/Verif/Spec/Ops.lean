/-
Calls of the library as data: their answers, the relations they hand over, and their time argument.
-/
import Verif.Spec.Graph
import Verif.Spec.History

namespace TG
variable [Env]

/-- What a call of the library returns. -/
inductive Answer where
  | unit
  | weight (w : Nat)
  | certs (cs : List Certificate)
  | revocations (rs : List Revocation)
  deriving DecidableEq

/-- The call with its answer and the database it leaves. -/
def Op.call : Op → M Db TrustGraphError Answer
  | .setRoot pk n => do let _ ← TrustGraph.setRoot pk n; pure .unit
  | .addTrust t by' now => do let w ← TrustGraph.addTrust t by' now; pure (.weight w)
  | .add c now => do let _ ← TrustGraph.add c now; pure .unit
  | .revoke r => do let _ ← TrustGraph.revoke r; pure .unit
  | .weight pk now => do let w ← TrustGraph.weight pk now; pure (.weight w)
  | .weightFrom pk issuer now => do let w ← TrustGraph.weightFrom pk issuer now; pure (.weight w)
  | .getAllCerts pk now => do let cs ← TrustGraph.getAllCerts pk now; pure (.certs cs)
  | .getAllCertsFrom pk issuer now => do let cs ← TrustGraph.getAllCertsFrom pk issuer now; pure (.certs cs)
  | .getRevocations pk => do let rs ← TrustGraph.getRevocations pk; pure (.revocations rs)

/-- The relations handed over with a call: a trust with its claimed issuer, the trusts of a certificate, each with the key of the preceding
trust as issuer (the first with its own key), or a revocation. -/
def Op.offers : Op → List TrustRelation
  | .addTrust t by' _ => [.auth ⟨t, by'⟩]
  | .add c _ => ((Spec.issuers c.chain).zip c.chain).map (fun p => .auth ⟨p.2, p.1⟩)
  | .revoke r => [.revocation r]
  | _ => []

/-- The time argument of a call. -/
def Op.time : Op → Option Dur
  | .addTrust _ _ now => some now
  | .add _ now => some now
  | .weight _ now => some now
  | .weightFrom _ _ now => some now
  | .getAllCerts _ now => some now
  | .getAllCertsFrom _ _ now => some now
  | _ => none

/-- Calls that only ask. -/
def Op.IsQuery : Op → Prop
  | .weight _ _ | .weightFrom _ _ _ | .getAllCerts _ _ | .getAllCertsFrom _ _ _ | .getRevocations _ => True
  | _ => False

/-- `Later ok db db'`: the database `db` becomes `db'` by some calls, all satisfying `ok`, with SQL failures at any moment. -/
inductive Later (ok : Op → Prop) (db : Db) : Db → Prop
  | refl : Later ok db db
  | step {db'} (op : Op) : ok op → Later ok db db' → Later ok db (op.run db')
  | weather {db'} (faults : List Bool) : Later ok db db' → Later ok db { db' with faults }

/-- `History ops db`: the calls `ops`, in this order, starting with an empty database and with SQL failures at any moment, leave `db`. -/
inductive History : List Op → Db → Prop
  | init : History [] ⟨[], [], []⟩
  | step {ops db} (op : Op) : History ops db → History (ops ++ [op]) (op.run db)
  | weather {ops db} (faults : List Bool) : History ops db → History ops { db with faults }

end TG
