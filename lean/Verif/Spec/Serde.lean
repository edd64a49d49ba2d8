/-
What it means that keys, signatures, trusts and relations of programs compiled for two targets are the same, and can be handled by both.
-/
import Verif.Model.Graph

namespace TG

/-- The two targets agree on which bytes are keys. -/
def SameKeys (A B : Env) : Prop := A.edValid = B.edValid ∧ A.secpValid = B.secpValid

variable {A B : Env}

/-- The same format and the same bytes. -/
def PublicKey.Same (p : @PublicKey A) (q : @PublicKey B) : Prop := @PublicKey.encode A p = @PublicKey.encode B q

/-- The same format and the same bytes. -/
def Signature.Same (s : @Signature A) (s' : @Signature B) : Prop := @Signature.encode A s = @Signature.encode B s'

/-- Equal in all four fields. -/
def Trust.Same (t : @Trust A) (t' : @Trust B) : Prop :=
  (@Trust.issuedFor A t).Same (@Trust.issuedFor B t') ∧ @Trust.expiresAt A t = @Trust.expiresAt B t' ∧
  (@Trust.signature A t).Same (@Trust.signature B t') ∧ @Trust.issuedAt A t = @Trust.issuedAt B t'

/-- Equal in all four fields. -/
def Revocation.Same (r : @Revocation A) (r' : @Revocation B) : Prop :=
  (@Revocation.pk A r).Same (@Revocation.pk B r') ∧ @Revocation.revokedAt A r = @Revocation.revokedAt B r' ∧
  (@Revocation.revokedBy A r).Same (@Revocation.revokedBy B r') ∧ (@Revocation.signature A r).Same (@Revocation.signature B r')

/-- Both authorizations or both revocations, equal in all fields. -/
def TrustRelation.Same : @TrustRelation A → @TrustRelation B → Prop
  | @TrustRelation.auth A a, @TrustRelation.auth B b => (@Auth.trust A a).Same (@Auth.trust B b) ∧ (@Auth.issuedBy A a).Same (@Auth.issuedBy B b)
  | @TrustRelation.revocation A r, @TrustRelation.revocation B r' => r.Same r'
  | _, _ => False

variable (B)

/-- The format of the key exists on the target: there is no RSA on wasm32. -/
def PublicKey.Supported (p : @PublicKey A) : Prop := ∀ h, @PublicKey.keyFormat A p = @KeyFormat.rsa A h → B.wasm = false

/-- The format of the signature exists on the target: there is no RSA on wasm32. -/
def Signature.Supported (s : @Signature A) : Prop := ∀ h, @Signature.sigType A s = @KeyFormat.rsa A h → B.wasm = false

/-- All formats exist on the target. -/
def Trust.Supported (t : @Trust A) : Prop := (@Trust.issuedFor A t).Supported B ∧ (@Trust.signature A t).Supported B

/-- All formats exist on the target. -/
def TrustRelation.Supported : @TrustRelation A → Prop
  | @TrustRelation.auth A a => (@Auth.trust A a).Supported B ∧ (@Auth.issuedBy A a).Supported B
  | @TrustRelation.revocation A r => (@Revocation.pk A r).Supported B ∧ (@Revocation.revokedBy A r).Supported B ∧ (@Revocation.signature A r).Supported B

end TG
