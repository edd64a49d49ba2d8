/-
Specification of which certificates a trust graph contains.  It does not mention the search.

A certificate is read from the root: trust number `i` is issued for key `kᵢ`; it is issued by `kᵢ₋₁`, the first one by `k₀`
itself.
-/
import Verif.Model.Certificate

namespace TG.Spec
variable [Env]

/-- What a trust graph holds at some moment. -/
structure Snapshot where
  /-- `trusted by t`: trust `t`, issued by key `by`, is present. -/
  trusted : PublicKey → Trust → Prop
  /-- `revoked by pk`: a revocation of `pk` issued by `by` is present. -/
  revoked : PublicKey → PublicKey → Prop
  /-- The registered roots. -/
  root : PublicKey → Prop

/-- A chain of present trusts from a root's self-signed trust to `target`. -/
structure Linked (g : Snapshot) (target : PublicKey) (ts : List Trust) : Prop where
  long : 2 ≤ ts.length
  root : ∀ t, ts[0]? = some t → g.root t.issuedFor ∧ g.trusted t.issuedFor t
  link : ∀ (i : Nat) a b, ts[i]? = some a → ts[i + 1]? = some b → g.trusted a.issuedFor b
  target : ∀ t, ts[ts.length - 1]? = some t → t.issuedFor = target

/-- The issuers of the trusts of a chain, in order: the root itself, then the key of the preceding trust. -/
def issuers : List Trust → List PublicKey
  | [] => []
  | t :: ts => t.issuedFor :: (t :: ts).dropLast.map (·.issuedFor)

/-- A key occurs twice only as the two ends of a self-signed trust that is not at the root. -/
def NoRevisit (ts : List Trust) : Prop :=
  ∀ (i j : Nat) a b, i < j → ts[i]? = some a → ts[j]? = some b → a.issuedFor = b.issuedFor →
    0 < i ∧ j = i + 1

/-- The README's rule: nobody on the chain has revoked somebody after them. -/
def Unrevoked (g : Snapshot) (ts : List Trust) : Prop :=
  ∀ (i j : Nat) a b, i < j → ts[i]? = some a → ts[j]? = some b → ¬ g.revoked a.issuedFor b.issuedFor

/-- The rule that the code implements: as `Unrevoked`, except for revocations of the issuer of the last
trust. -/
def UnrevokedExceptLastIssuer (g : Snapshot) (ts : List Trust) : Prop :=
  ∀ (i j : Nat) a b, i < j → ts[i]? = some a → ts[j]? = some b → j + 2 ≠ ts.length →
    ¬ g.revoked a.issuedFor b.issuedFor

/-- The certificates of `target` in a graph. -/
structure Admissible (g : Snapshot) (target : PublicKey) (c : Certificate) : Prop where
  linked : Linked g target c.chain
  noRevisit : NoRevisit c.chain
  unrevoked : UnrevokedExceptLastIssuer g c.chain

end TG.Spec
