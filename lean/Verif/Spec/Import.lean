/-
When a certificate can be imported into a database.
-/
import Verif.Spec.Crypto
import Verif.Spec.Weight
import Verif.Spec.Submit

namespace TG.Spec
variable [Env]

/-- `k` is the issuer of trust `t` in the chain: for the first trust its own key, for a later one the key of the preceding trust. -/
def Edge (ts : List Trust) (k : PublicKey) (t : Trust) : Prop :=
  ∃ i : Nat, (issuers ts)[i]? = some k ∧ ts[i]? = some t

/-- What a certificate must satisfy to be imported at `now`. -/
structure Importable (db : Db) (c : Certificate) (now : Dur) : Prop where
  long : 2 ≤ c.chain.length
  /-- Its root is registered, with a `max_chain_len` (which is `16 - f`) of at least the number of trusts after the root trust. -/
  root : ∀ t, c.chain[0]? = some t → ∃ f, db.rootFactor t.issuedFor = some f ∧ c.chain.length ≤ 16 - f + 1
  /-- Every trust verifies under the key of its issuer. -/
  valid : ∀ k t, Edge c.chain k t → t.verify k now = .ok ()
  /-- No trust is about to be collected. -/
  live : ∀ t ∈ c.chain, Live t now
  /-- Times are whole seconds. -/
  whole : ∀ t ∈ c.chain, t.WholeSeconds
  noRevisit : NoRevisit c.chain
  /-- No key has revoked a later one, other than its successor. -/
  unrevoked : ∀ (i j : Nat) a b, i + 1 < j → c.chain[i]? = some a → c.chain[j]? = some b →
    ¬ (db.snapshot now).revoked a.issuedFor b.issuedFor
  /-- What is stored between a key and its successor is the trust itself, or older. -/
  fresh : ∀ k t, Edge c.chain k t → ∀ r, db.Stored r → r.SamePair (.auth ⟨t, k⟩) → r = .auth ⟨t, k⟩ ∨ r.Before (.auth ⟨t, k⟩)

/-- Certificates agree: one trust per pair of keys. -/
def Agree (c c' : Certificate) : Prop :=
  ∀ k t t', Edge c.chain k t → Edge c'.chain k t' → t.issuedFor = t'.issuedFor → t = t'

/-- A list of certificates, each with the time at which it will be imported. -/
structure Bundle (db : Db) (cs : List (Certificate × Dur)) : Prop where
  /-- Each is importable at each of the times. -/
  each : ∀ p ∈ cs, ∀ q ∈ cs, Importable db p.1 q.2
  agree : ∀ p ∈ cs, ∀ q ∈ cs, Agree p.1 q.1

end TG.Spec

namespace TG
variable [Env]

/-- `add` of one certificate after the other. -/
def addAll : List (Certificate × Dur) → M Db TrustGraphError Unit
  | [] => pure ()
  | (c, now) :: cs => do
    TrustGraph.add c now
    addAll cs

end TG
