/-
Model of /repo/trust-graph/src/public_key_hashable.rs: the wrapper that makes keys usable in hash maps.
-/
import Verif.Model.Keypair

namespace TG
variable [Env]

namespace Hashable

/-- The bytes fed to the hasher by `Hash::hash` (public_key_hashable.rs:33-37). -/
def hashInput (pk : PublicKey) : Bytes := pk.encode

/-- The bytes fed to the hasher by `Hash::hash_slice` (public_key_hashable.rs:39-50). -/
def hashSliceInput (pks : List PublicKey) : Bytes := pks.flatMap PublicKey.encode

/-- `Display` (public_key_hashable.rs:77-81). -/
def display (pk : PublicKey) : Str := Base58.encode pk.encode

/-- `FromStr` (public_key_hashable.rs:83-90). -/
def fromStr (s : Str) : Outcome DecodingError PublicKey := PublicKey.fromBase58 s

/-- The values of the serde data model that matter here (public_key_hashable.rs:97, 117, 130). -/
inductive Value where
  | str (s : Str)
  | bytes (b : Bytes)
  | seq (b : Bytes)
  deriving DecidableEq, Repr

/-- `Serialize` (public_key_hashable.rs:92-99), for a format that has byte strings. -/
def serialize (pk : PublicKey) : Value := .bytes pk.encode

/-- What a format without byte strings (JSON) makes of a value: `serde_json` writes the bytes of
public_key_hashable.rs:97 as an array of numbers. -/
def jsonOf : Value → Value
  | .bytes b => .seq b
  | v => v

/-- `Deserialize` (public_key_hashable.rs:101-142): the visitor handles strings and bytes, anything else is a type error (here
`invalidLength` stands for serde's error). -/
def deserialize : Value → Outcome DecodingError PublicKey
  | .str s => match Base58.decode s with
    | none => .err .base58DecodeError
    | some b => PublicKey.decode b
  | .bytes b => PublicKey.decode b
  | .seq _ => .err .invalidLength

end Hashable
end TG
