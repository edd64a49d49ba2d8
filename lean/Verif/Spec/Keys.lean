/-
The keys along a certificate.
-/
import Verif.Spec.Graph

namespace TG
variable [Env]

/-- The keys the trusts of a certificate are issued for, from the root to the target: the path it takes. -/
def Certificate.keys (c : Certificate) : List PublicKey := c.chain.map (·.issuedFor)

end TG
