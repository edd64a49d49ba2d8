/-
Model of the serde implementations of keys, signatures, trusts, revocations and relations: those derived in keypair/src/public_key.rs:29,
keypair/src/signature.rs:25, keypair/src/ed25519.rs:107, 174, keypair/src/rsa.rs:68, 230, keypair/src/secp256k1.rs:226, trust-graph/src/trust.rs:36,
trust-graph/src/revoke.rs:38 and trust-graph/src/trust_relation.rs:25, 33, and the handwritten one of keypair/src/secp256k1.rs:207-224.

What a serializer is given and what a deserializer presents is modelled by values of serde's data model; how these are written as bytes is up to the
format.
-/
import Verif.Model.Graph

namespace TG.Serde

/-- What a deserializer presents to a visitor.  Newtype structs are transparent, as in JSON, MessagePack and bincode. -/
inductive Value where
  | num (n : Nat)
  | str (utf8 : Bytes)
  | bytes (b : Bytes)
  | seq (vs : List Value)
  | map (fields : List (Str × Value))
  | named (variant : Str) (v : Value)
  | numbered (variant : Nat) (v : Value)

/-- What formats differ in.  JSON: bytes as sequences, structs with names, variants by name.  MessagePack (rmp-serde 1): byte strings, structs as sequences,
variants by name.  bincode: byte strings like sequences of bytes (their encodings are the same), structs as sequences, variants by number; it does not record
what was written, but all variants of an enum below have contents of the same shape, or are told apart by a number that is the same everywhere. -/
structure Format where
  byteStrings : Bool
  fieldNames : Bool
  variantNames : Bool

/-- An error of the deserializer. -/
inductive Error where
  | invalid
  deriving DecidableEq, Repr

namespace Format
variable (F : Format)

/-- `serialize_bytes` (secp256k1.rs:212; `Serialize for VerifyingKey` in ed25519-dalek 2), read back. -/
def bytes (b : Bytes) : Value := if F.byteStrings then .bytes b else .seq (b.map (fun x => .num x.toNat))

/-- `serialize_struct`, read back. -/
def struct (fields : List (Str × Value)) : Value := if F.fieldNames then .map fields else .seq (fields.map (·.2))

/-- `serialize_newtype_variant`, read back. -/
def variant (index : Nat) (name : Str) (v : Value) : Value := if F.variantNames then .named name v else .numbered index v

end Format

/-- `Serialize for Vec<u8>` (ed25519.rs:174-175, rsa.rs:68-69, 230-231, secp256k1.rs:226-227): always a sequence. -/
def vec (b : Bytes) : Value := .seq (b.map (fun x => .num x.toNat))

/-- `Deserialize for u8`. -/
def readU8 : Value → Outcome Error UInt8
  | .num n => if n < 256 then .ok (UInt8.ofNat n) else .err .invalid
  | _ => .err .invalid

/-- `next_element::<u8>` until the end. -/
def readU8s : List Value → Outcome Error Bytes
  | [] => .ok []
  | v :: vs => do
    let b ← readU8 v
    let bs ← readU8s vs
    .ok (b :: bs)

/-- `Deserialize for Vec<u8>`. -/
def readVec : Value → Outcome Error Bytes
  | .seq vs => readU8s vs
  | _ => .err .invalid

/-- `Deserialize for serde_bytes::ByteBuf` (secp256k1.rs:221). -/
def readByteBuf : Value → Outcome Error Bytes
  | .seq vs => readU8s vs
  | .bytes b => .ok b
  | .str b => .ok b
  | _ => .err .invalid

/-- The value of a field; a missing field and a duplicate are errors. -/
def field (name : Str) (fields : List (Str × Value)) : Outcome Error Value :=
  match fields.filter (fun f => f.1 = name) with
  | [f] => .ok f.2
  | _ => .err .invalid

/-- The values of several fields. -/
def fieldValues (fields : List (Str × Value)) : List Str → Outcome Error (List Value)
  | [] => .ok []
  | n :: ns => do
    let v ← field n fields
    let vs ← fieldValues fields ns
    .ok (v :: vs)

/-- The fields of a derived struct: by position, or by name with unknown names ignored. -/
def readStruct (names : List Str) : Value → Outcome Error (List Value)
  | .seq vs => if vs.length = names.length then .ok vs else .err .invalid
  | .map fields => fieldValues fields names
  | _ => .err .invalid

/-- The number and the content of a variant of a derived enum. -/
def readEnum (names : List Str) : Value → Outcome Error (Nat × Value)
  | .named n v => if n ∈ names then .ok (names.idxOf n, v) else .err .invalid
  | .numbered i v => if i < names.length then .ok (i, v) else .err .invalid
  | _ => .err .invalid

/-- `Serialize for Duration` in serde. -/
def duration (F : Format) (d : Dur) : Value := F.struct [("secs".toList, .num d.secs.toNat), ("nanos".toList, .num d.nanos.val)]

/-- Names other than these are errors (`deserialize_identifier` for the fields of `Duration` in serde). -/
def onlyFields (names : List Str) : Value → Outcome Error Unit
  | .map fields => if fields.all (fun f => f.1 ∈ names) then .ok () else .err .invalid
  | _ => .ok ()

/-- `Deserialize for Duration` in serde: unknown names are errors, excess nanoseconds are carried over, overflow is an error. -/
def readDuration (v : Value) : Outcome Error Dur := do
  onlyFields ["secs".toList, "nanos".toList] v
  match ← readStruct ["secs".toList, "nanos".toList] v with
  | [.num s, .num n] =>
    if s < 2 ^ 64 ∧ n < 2 ^ 32 ∧ s + n / 1000000000 < 2 ^ 64 then
      .ok ⟨UInt64.ofNat (s + n / 1000000000), ⟨n % 1000000000, Nat.mod_lt _ (by decide)⟩⟩
    else .err .invalid
  | _ => .err .invalid

/-- The variants of `PublicKey` and `Signature` (public_key.rs:29-38, signature.rs:25-31): the second exists only on native targets, and derived
implementations number the variants that exist. -/
def formats (wasm : Bool) : List Str :=
  if wasm then ["Ed25519".toList, "Secp256k1".toList] else ["Ed25519".toList, "Rsa".toList, "Secp256k1".toList]

section
variable [Env]

/-- The name of a variant of `PublicKey` and `Signature` (public_key.rs:29-38, signature.rs:25-31). -/
def formatName : KeyFormat → Str
  | .ed25519 => "Ed25519".toList
  | .rsa _ => "Rsa".toList
  | .secp256k1 => "Secp256k1".toList

/-- The variant for a key format (public_key.rs:29-38, signature.rs:25-31). -/
def formatVariant (F : Format) (k : KeyFormat) (v : Value) : Value := F.variant ((formats Env.wasm).idxOf (formatName k)) (formatName k) v

/-- The variant with a given number, which is known to exist (public_key.rs:29-38, signature.rs:25-31). -/
def formatAt : Nat → KeyFormat
  | 0 => .ed25519
  | 1 => if h : Env.wasm = false then .rsa h else .secp256k1
  | _ => .secp256k1

/-- Reading the variant of a key or signature (public_key.rs:29-38, signature.rs:25-31). -/
def readFormat (v : Value) : Outcome Error (KeyFormat × Value) := do
  let (i, v) ← readEnum (formats Env.wasm) v
  .ok (formatAt i, v)

/-- `Serialize for PublicKey` (public_key.rs:29; ed25519.rs:107, rsa.rs:68, secp256k1.rs:207-214). -/
def publicKey (F : Format) : PublicKey → Value
  | .ed25519 b _ _ => formatVariant F .ed25519 (F.bytes b)
  | .rsa b h => formatVariant F (.rsa h) (vec b)
  | .secp256k1 b _ _ => formatVariant F .secp256k1 (F.bytes b)

/-- `Deserialize for VerifyingKey` in ed25519-dalek 2 (ed25519.rs:107): a byte string, or a sequence of exactly 32 bytes. -/
def readEd25519 (v : Value) : Outcome Error PublicKey :=
  match v with
  | .bytes b => (Ed25519.decode b).mapErr (fun _ => .invalid)
  | .seq vs => do
    let b ← readU8s vs
    (Ed25519.decode b).mapErr (fun _ => .invalid)
  | _ => .err .invalid

/-- `Deserialize for secp256k1::PublicKey` (secp256k1.rs:216-224). -/
def readSecp256k1 (v : Value) : Outcome Error PublicKey := do
  let b ← readByteBuf v
  (Secp256k1.decode b).mapErr (fun _ => .invalid)

/-- `Deserialize for PublicKey` (public_key.rs:29; rsa.rs:68). -/
def readPublicKey (v : Value) : Outcome Error PublicKey := do
  match ← readFormat v with
  | (.ed25519, v) => readEd25519 v
  | (.rsa h, v) => do
    let b ← readVec v
    .ok (.rsa b h)
  | (.secp256k1, v) => readSecp256k1 v

/-- `Serialize for Signature` (signature.rs:25; ed25519.rs:174, rsa.rs:230, secp256k1.rs:226). -/
def signature (F : Format) (s : Signature) : Value := formatVariant F s.sigType (vec s.raw)

/-- `Deserialize for Signature` (signature.rs:25; ed25519.rs:174, rsa.rs:230, secp256k1.rs:226). -/
def readSignature (v : Value) : Outcome Error Signature := do
  let (k, v) ← readFormat v
  let b ← readVec v
  .ok (Signature.fromBytes k b)

/-- The fields of `Trust` in their order (trust.rs:38-50). -/
def trustFields : List Str := ["issued_for".toList, "expires_at".toList, "signature".toList, "issued_at".toList]

/-- `Serialize for Trust` (trust.rs:36-50). -/
def trust (F : Format) (t : Trust) : Value :=
  F.struct (trustFields.zip [publicKey F t.issuedFor, duration F t.expiresAt, signature F t.signature, duration F t.issuedAt])

/-- `Deserialize for Trust` (trust.rs:36-50). -/
def readTrust (v : Value) : Outcome Error Trust := do
  match ← readStruct trustFields v with
  | [a, b, c, d] => do
    let issuedFor ← readPublicKey a
    let expiresAt ← readDuration b
    let signature ← readSignature c
    let issuedAt ← readDuration d
    .ok { issuedFor, expiresAt, signature, issuedAt }
  | _ => .err .invalid

/-- The fields of `Revocation` in their order (revoke.rs:39-48). -/
def revocationFields : List Str := ["pk".toList, "revoked_at".toList, "revoked_by".toList, "signature".toList]

/-- `Serialize for Revocation` (revoke.rs:38-48). -/
def revocation (F : Format) (r : Revocation) : Value :=
  F.struct (revocationFields.zip [publicKey F r.pk, duration F r.revokedAt, publicKey F r.revokedBy, signature F r.signature])

/-- `Deserialize for Revocation` (revoke.rs:38-48). -/
def readRevocation (v : Value) : Outcome Error Revocation := do
  match ← readStruct revocationFields v with
  | [a, b, c, d] => do
    let pk ← readPublicKey a
    let revokedAt ← readDuration b
    let revokedBy ← readPublicKey c
    let signature ← readSignature d
    .ok { pk, revokedAt, revokedBy, signature }
  | _ => .err .invalid

/-- `Serialize for Auth` (trust_relation.rs:25-31). -/
def auth (F : Format) (a : Auth) : Value := F.struct [("trust".toList, trust F a.trust), ("issued_by".toList, publicKey F a.issuedBy)]

/-- `Deserialize for Auth` (trust_relation.rs:25-31). -/
def readAuth (v : Value) : Outcome Error Auth := do
  match ← readStruct ["trust".toList, "issued_by".toList] v with
  | [a, b] => do
    let trust ← readTrust a
    let issuedBy ← readPublicKey b
    .ok { trust, issuedBy }
  | _ => .err .invalid

/-- `Serialize for TrustRelation` (trust_relation.rs:33-37). -/
def relation (F : Format) : TrustRelation → Value
  | .auth a => F.variant 0 "Auth".toList (auth F a)
  | .revocation r => F.variant 1 "Revocation".toList (revocation F r)

/-- `Deserialize for TrustRelation` (trust_relation.rs:33-37). -/
def readRelation (v : Value) : Outcome Error TrustRelation := do
  match ← readEnum ["Auth".toList, "Revocation".toList] v with
  | (0, v) => do
    let a ← readAuth v
    .ok (.auth a)
  | (1, v) => do
    let r ← readRevocation v
    .ok (.revocation r)
  | _ => .err .invalid

end

end TG.Serde
