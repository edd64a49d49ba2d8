/-
Model of the generation of key pairs (/repo/keypair/src/key_pair.rs:121-139, ed25519.rs:36-38 and 160-163, secp256k1.rs:43-45 and
93-104).

Randomness is a parameter: the blocks of 32 bytes that the source hands out, one after the other.  A source that fails (`OsRng` panics
then) is not modelled.  `none` says that the blocks handed out so far are used up and the program still waits for more.
-/
import Verif.Model.Keypair

namespace TG

/-- What a source of randomness writes into a buffer of 32 bytes. -/
abbrev Block : Type := Fin 32 → UInt8

/-- The bytes of a block. -/
def Block.bytes (b : Block) : Bytes := List.ofFn b

theorem Block.length_bytes (b : Block) : b.bytes.length = 32 := by simp [Block.bytes]

variable [Env]

namespace KeyPair

/-- `ed25519::SecretKey::generate` (ed25519.rs:160-163): `SigningKey::generate` takes 32 bytes as they are; then `Keypair::from`
(ed25519.rs:36-38). -/
def generateEd25519 : List Block → Option KeyPair
  | [] => none
  | b :: _ => some (.ed25519 b.bytes b.length_bytes)

/-- `secp256k1::SecretKey::generate` (secp256k1.rs:93-104): a loop that draws until `SecretKey::parse` accepts; then `Keypair::from`
(secp256k1.rs:43-45). -/
def generateSecp256k1 : List Block → Option KeyPair
  | [] => none
  | b :: rest =>
    if h : Env.secpValidSk b.bytes = true then some (.secp256k1 b.bytes b.length_bytes h) else generateSecp256k1 rest

/-- `KeyPair::generate` (key_pair.rs:121-129); RSA is `todo!()`. -/
def generate (format : KeyFormat) (source : List Block) : Option (Outcome Empty KeyPair) :=
  match format with
  | .ed25519 => (generateEd25519 source).map .ok
  | .secp256k1 => (generateSecp256k1 source).map .ok
  | .rsa _ => some .panic

end KeyPair

end TG
