/-
What the holders of keys have said by signing, and what it means that nobody else has spoken for them.
-/
import Verif.Spec.Crypto
import Verif.Spec.ServiceMachine

namespace TG.Spec
variable [Env]

/-- What the holder of a key can say: that they trust a key until a date, or that they revoke a key. -/
inductive Statement where
  | trust (issuedFor : PublicKey) (expiresAt issuedAt : UInt64)
  | revocation (pk : PublicKey) (revokedAt : UInt64)

/-- The bytes that are hashed and signed to say it. -/
def Statement.message : Statement → Bytes
  | .trust k e i => Trust.metadata k (.ofSecs e) (.ofSecs i)
  | .revocation k t => Revocation.metadata k (.ofSecs t)

/-- What a trust or a revocation claims that its issuer has said. -/
def claim : TrustRelation → Statement
  | .auth a => .trust a.trust.issuedFor a.trust.expiresAt.secs a.trust.issuedAt.secs
  | .revocation r => .revocation r.pk r.revokedAt.secs

/-- The trust or revocation is handed to the service in this run, by anybody and in any way. -/
def HandedOver (tr : List Event) (q : TrustRelation) : Prop :=
  ∃ cp c o op, Event.call cp c o ∈ tr ∧ Means cp c op ∧ q ∈ op.offers

/-- The signature scheme (SHA-256 followed by the scheme of the key) holds for these keys in this run: if something handed over bears a signature that the scheme of
such a key accepts, then its holder has signed the same bytes.  (As long as nobody has broken the scheme or stolen the secret key.) -/
def Unforged (said : PublicKey → Statement → Prop) (honest : PublicKey → Prop) (tr : List Event) : Prop :=
  ∀ q, HandedOver tr q → honest q.issuedBy → q.issuedBy.Accepts (Env.sha256 (claim q).message) q.signature.raw →
    ∃ s, said q.issuedBy s ∧ s.message = (claim q).message

/-- An honest key on whose behalf a certificate speaks has said so: the root about itself, and each key about the next one. -/
structure Vouched (said : PublicKey → Statement → Prop) (honest : PublicKey → Prop) (d : CertDto) : Prop where
  root : ∀ t, d.chain[0]? = some t → ∃ k, Names t.issuedFor k ∧ (honest k → said k (.trust k t.expiresAt t.issuedAt))
  link : ∀ (i : Nat) t t', d.chain[i]? = some t → d.chain[i + 1]? = some t' → ∃ a b, Names t.issuedFor a ∧ Names t'.issuedFor b ∧
    (honest a → said a (.trust b t'.expiresAt t'.issuedAt))

/-- The owner of the service has registered the key as a root. -/
def OwnerSet (tr : List Event) (k : PublicKey) : Prop :=
  ∃ cp p n o, Event.call cp (.setRoot p n) o ∈ tr ∧ cp.initPeerId = cp.serviceCreatorPeerId ∧ Names p k

/-- The key is a root registered by the owner, or can be reached from one in steps from a key to another of which the first key, if honest, has said that it trusts
the second. -/
inductive Recommended (said : PublicKey → Statement → Prop) (honest : PublicKey → Prop) (tr : List Event) : PublicKey → Prop
  | root {k} : OwnerSet tr k → Recommended said honest tr k
  | next {a b e i} : Recommended said honest tr a → (honest a → said a (.trust b e i)) → Recommended said honest tr b

end TG.Spec
