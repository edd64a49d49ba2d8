/-
What it means that a signature is genuine, independently of the code that checks it.
-/
import Verif.Model.Trust

namespace TG
variable [Env]

/-- The signature scheme of the key accepts these signature bytes for this message.  Secp256k1 signs the SHA-256 of the message and
writes signatures in DER. -/
def PublicKey.Accepts (pk : PublicKey) (msg sig : Bytes) : Prop :=
  match pk with
  | .ed25519 b _ _ => Env.edVerify b msg sig = true
  | .rsa b _ => Env.rsaVerify b msg sig = true
  | .secp256k1 b _ _ => Env.secpParseDer sig = true ∧ Env.secpVerify b (Env.sha256 msg) sig = true

/-- Keys other than Secp256k1. -/
def PublicKey.NotSecp : PublicKey → Prop
  | .secp256k1 .. => False
  | _ => True

/-- Keys other than RSA. -/
def PublicKey.NotRsa : PublicKey → Prop
  | .rsa .. => False
  | _ => True

/-- Signing with this pair cannot fail (only RSA signing can). -/
def KeyPair.CanSign (kp : KeyPair) (msg : Bytes) : Prop :=
  match kp with
  | .rsa k _ => (Env.rsaSign k msg).isSome
  | _ => True

/-- The object is unchanged by cutting times to whole seconds. -/
def Trust.WholeSeconds (t : Trust) : Prop := t.expiresAt.Whole ∧ t.issuedAt.Whole

end TG
