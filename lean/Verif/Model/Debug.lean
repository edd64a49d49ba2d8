/-
The texts that `{:?}` prints for keys: the `Debug` implementations written by hand in /repo/keypair/src/{ed25519,secp256k1,rsa}.rs.  (`KeyPair` itself and
`rsa::Keypair` implement no `Debug`.)  The texts of the keys of `ed25519_dalek` and `libsecp256k1` are a parameter.
-/
import Verif.Model.Keypair
import Verif.Model.Text

namespace TG

/-- `fmt::Debug for ed25519::SecretKey` and for `secp256k1::SecretKey` (ed25519.rs:150-154, secp256k1.rs:85-89). -/
def debugSecretKey (_sk : Bytes) : Str := "SecretKey".toList

/-- `f.debug_struct("Keypair").field("public", …).finish()` (ed25519.rs:78-80, secp256k1.rs:60-62) of the text of the field. -/
def debugPair (field : Str) : Str := "Keypair { public: ".toList ++ field ++ " }".toList

variable [Env]

/-- `fmt::Debug for ed25519::Keypair` (ed25519.rs:76-82).  `lib` is what `ed25519_dalek` prints for a public key. -/
def debugEd25519 (lib : Bytes → Str) (sk : Bytes) : Str := debugPair (lib (Env.edPublic sk))

/-- `fmt::Debug for secp256k1::Keypair` (secp256k1.rs:58-64).  The field is a `PublicKey` with derived `Debug` (secp256k1.rs:161-162); `lib` is what `libsecp256k1`
prints for a public key. -/
def debugSecp256k1 (lib : Bytes → Str) (sk : Bytes) : Str :=
  debugPair ("PublicKey(".toList ++ lib (Env.secpPublic sk) ++ ")".toList)

/-- A lower-case hexadecimal digit (for rsa.rs:130). -/
def hexDigit (n : Nat) : Char := if n < 10 then Char.ofNat (48 + n) else Char.ofNat (87 + n)

/-- `{byte:02x}` (rsa.rs:130). -/
def hexByte (b : UInt8) : Str := [hexDigit (b.toNat / 16), hexDigit (b.toNat % 16)]

/-- `fmt::Debug for rsa::PublicKey` (rsa.rs:124-135).  The quotes are those of `Debug for String`, which escapes none of the digits. -/
def debugRsa (pk : Bytes) : Str := "PublicKey { pkcs1: \"".toList ++ pk.flatMap hexByte ++ "\" }".toList

end TG
