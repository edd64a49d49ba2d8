/-
What a question about a key has to look through.
-/
import Verif.Spec.Graph
import Verif.Model.Graph

namespace TG.Spec
variable [Env]

/-- A trail from `target` against the direction of trust, leading anywhere: the first trust is in `target`, each further one in the issuer of the one before.  No
issuer, except for that of the first trust, has occurred before as a trusted key, or has revoked `target` or an issuer before, except for that of the first trust. -/
structure Trail (g : Snapshot) (target : PublicKey) (l : List Auth) : Prop where
  start : l ≠ []
  present : ∀ a ∈ l, g.trusted a.issuedBy a.trust
  first : ∀ a, l[0]? = some a → a.trust.issuedFor = target
  link : ∀ (i : Nat) a b, l[i]? = some a → l[i + 1]? = some b → b.trust.issuedFor = a.issuedBy
  noRevisit : ∀ (i j : Nat) a b, i < j → l[i]? = some a → l[j]? = some b → b.issuedBy ≠ a.trust.issuedFor
  unrevoked : ∀ (j : Nat) b, 0 < j → l[j]? = some b → ¬ g.revoked b.issuedBy target
  unrevokedIssuers : ∀ (i j : Nat) a b, 0 < i → i < j → l[i]? = some a → l[j]? = some b → ¬ g.revoked b.issuedBy a.issuedBy

end TG.Spec
