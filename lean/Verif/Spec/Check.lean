/-
Certificates in the hands of somebody who checks them without asking a trust graph.
-/
import Verif.Spec.Speech

namespace TG.Spec
variable [Env]

/-- The signature scheme holds for these keys and this trust or revocation: if it bears a signature that the scheme of such a key accepts, then its holder has signed the
same bytes. -/
def UnforgedRelation (said : PublicKey → Statement → Prop) (honest : PublicKey → Prop) (q : TrustRelation) : Prop :=
  honest q.issuedBy → q.issuedBy.Accepts (Env.sha256 (claim q).message) q.signature.raw → ∃ s, said q.issuedBy s ∧ s.message = (claim q).message

/-- The same for the trusts of a certificate. -/
structure UnforgedCertificate (said : PublicKey → Statement → Prop) (honest : PublicKey → Prop) (c : Certificate) : Prop where
  root : ∀ t, c.chain[0]? = some t → UnforgedRelation said honest (.auth ⟨t, t.issuedFor⟩)
  link : ∀ (i : Nat) a b, c.chain[i]? = some a → c.chain[i + 1]? = some b → UnforgedRelation said honest (.auth ⟨b, a.issuedFor⟩)

/-- What a certificate is meant to prove: it begins with one of the roots, each key on it has said that it trusts the next one until a date that has not passed (the
root also about itself), as far as the keys are honest. -/
structure Proves (said : PublicKey → Statement → Prop) (honest : PublicKey → Prop) (roots : List PublicKey) (now : Dur) (c : Certificate) : Prop where
  nonempty : c.chain ≠ []
  unexpired : ∀ t ∈ c.chain, now.total ≤ t.expiresAt.total
  root : ∀ t, c.chain[0]? = some t → t.issuedFor ∈ roots ∧ (honest t.issuedFor → said t.issuedFor (.trust t.issuedFor t.expiresAt.secs t.issuedAt.secs))
  link : ∀ (i : Nat) a b, c.chain[i]? = some a → c.chain[i + 1]? = some b →
    (honest a.issuedFor → said a.issuedFor (.trust b.issuedFor b.expiresAt.secs b.issuedAt.secs))

/-- The key is a root, or can be reached from one in steps from a key to another of which the first key, if honest, has said that it trusts the second, until a date that
has not passed. -/
inductive Reached (said : PublicKey → Statement → Prop) (honest : PublicKey → Prop) (roots : List PublicKey) (now : Dur) : PublicKey → Prop
  | root {k} : k ∈ roots → Reached said honest roots now k
  | next {a b e i} : Reached said honest roots now a → now.secs.toNat ≤ e.toNat → (honest a → said a (.trust b e i)) → Reached said honest roots now b

end TG.Spec
