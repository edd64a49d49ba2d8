/-
Submitting relations to the storage.
-/
import Verif.Spec.Db

namespace TG
variable [Env]

/-- Handing a trust or a revocation to the storage (`update_auth`, `revoke` of the trait `Storage`). -/
def TrustRelation.submit (now : Dur) (r : TrustRelation) (db : Db) : Db :=
  match r with
  | .auth a => (Storage.updateAuth a now db).2
  | .revocation r => (Storage.revoke r db).2

/-- One after the other. -/
def submitAll (now : Dur) (us : List TrustRelation) (db : Db) : Db := us.foldl (fun db r => r.submit now db) db

/-- The same ordered pair of keys. -/
def TrustRelation.SamePair (q r : TrustRelation) : Prop := q.issuedFor = r.issuedFor ∧ q.issuedBy = r.issuedBy

/-- Time order of issue. -/
def TrustRelation.Before (q r : TrustRelation) : Prop := q.issuedAt.total < r.issuedAt.total

end TG
