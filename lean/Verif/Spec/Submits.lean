/-
What a call hands over that carries the signature it needs.
-/
import Verif.Spec.Db
import Verif.Spec.Ops

namespace TG
variable [Env]

/-- The relation is handed over with the call, and its signature is one that the key named as its issuer accepts.  Forged relations are not submitted in
this sense: whoever lacks the secret key can hand them over as often as they like. -/
def Op.Submits (op : Op) (q : TrustRelation) : Prop := q ∈ op.offers ∧ q.SignatureValid

end TG
