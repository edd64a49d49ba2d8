/-
The dependencies of the code compute the standard functions, as far as the certificates in the repository need it.
-/
import Verif.Model.Keypair
import Verif.Spec.Ed25519

namespace TG

/-- `sha2` computes SHA-256 (FIPS 180-4), and `ed25519-dalek` accepts at least the keys and the signatures that RFC 8032 accepts. -/
structure Spec.Conforms [Env] : Prop where
  sha256 : ∀ m, Env.sha256 m = Sha2.sha256 m
  valid : ∀ pk, Ed25519Spec.valid pk = true → Env.edValid pk = true
  verify : ∀ pk msg sig, Ed25519Spec.verify pk msg sig = true → Env.edVerify pk msg sig = true

end TG
