/-
Model of the `fluence-keypair` crate (/repo/keypair/src).

Cryptographic primitives and the libp2p protobuf decoder are parameters (`Env`).  Error values keep the
constructor of the Rust enum; payload texts are dropped.
-/
import Verif.Base58

namespace TG

/-- A row of the SQL table `trust_relations` (service/src/storage_impl.rs:29-41), as seen by SQLite: texts,
64-bit integers and a blob. -/
structure RelRow where
  relationType : Int
  issuedFor : Str
  issuedBy : Str
  issuedAt : Int
  expiresAt : Int
  signature : Bytes
  deriving DecidableEq, Repr

/-- Everything the code depends on that lives outside /repo.  No law about cryptography is assumed here;
the length and validity fields say what the Rust *types* of the dependencies guarantee
(`[u8; 32]`, `VerifyingKey`, ...). -/
class Env where
  /-- `cfg(target_arch = "wasm32")`: RSA exists only when this is `false`. -/
  wasm : Bool
  /-- `cfg(debug_assertions)`: overflow and `debug_assert!` panic only when this is `true`. -/
  debug : Bool
  /-- `sha2::Sha256::digest`. -/
  sha256 : Bytes → Bytes
  sha256_length : ∀ m, (sha256 m).length = 32
  /-- `ed25519_dalek::VerifyingKey::from_bytes(b).is_ok()`. -/
  edValid : Bytes → Bool
  /-- `ed25519_dalek::Signature::try_from(sig).and_then(|s| pk.verify(msg, &s)).is_ok()`. -/
  edVerify : (pk msg sig : Bytes) → Bool
  /-- `SigningKey::from_bytes(sk).verifying_key().to_bytes()`. -/
  edPublic : (sk : Bytes) → Bytes
  edPublic_length : ∀ sk, (edPublic sk).length = 32
  edPublic_valid : ∀ sk, edValid (edPublic sk) = true
  /-- `SigningKey::from_bytes(sk).try_sign(msg)`, which has no failing path in ed25519-dalek 2. -/
  edSign : (sk msg : Bytes) → Bytes
  /-- `libsecp256k1::PublicKey::parse_slice(b, Some(Compressed)).is_ok()` for 33 bytes. -/
  secpValid : Bytes → Bool
  /-- `libsecp256k1::Signature::parse_der(sig).is_ok()`. -/
  secpParseDer : Bytes → Bool
  /-- `libsecp256k1::verify(&Message::parse(hash), &Signature::parse_der(sig), pk)`. -/
  secpVerify : (pk hash sig : Bytes) → Bool
  /-- `libsecp256k1::SecretKey::parse_slice(b).is_ok()` for 32 bytes. -/
  secpValidSk : Bytes → Bool
  /-- `PublicKey::from_secret_key(sk).serialize_compressed()`. -/
  secpPublic : (sk : Bytes) → Bytes
  secpPublic_length : ∀ sk, (secpPublic sk).length = 33
  secpPublic_valid : ∀ sk, secpValid (secpPublic sk) = true
  /-- `libsecp256k1::sign(hash, sk).0.serialize_der()`. -/
  secpSign : (sk hash : Bytes) → Bytes
  /-- `ring::signature::UnparsedPublicKey::new(&RSA_PKCS1_2048_8192_SHA256, pk).verify(msg, sig).is_ok()`. -/
  rsaVerify : (pk msg sig : Bytes) → Bool
  /-- PKCS#1 bytes of the public half of an RSA key pair (identified by its PKCS#8 bytes). -/
  rsaPublic : (kp : Bytes) → Bytes
  /-- `RsaKeyPair::sign`, which can fail. -/
  rsaSign : (kp msg : Bytes) → Option Bytes
  /-- The protobuf layer of `libp2p_identity::PublicKey::try_decode_protobuf`: the `Type` and `Data` fields. -/
  pbDecode : Bytes → Option (Nat × Bytes)
  /-- The order in which SQLite returns the rows of `trust_relations` selected for a key. -/
  scan : Str → List RelRow → List RelRow
  scan_perm : ∀ k l, (scan k l).Perm l

/-- `KeyFormat` (keypair/src/key_pair.rs:50-56). -/
inductive KeyFormat [Env] where
  | ed25519
  | rsa (native : Env.wasm = false)
  | secp256k1
  deriving DecidableEq

/-- `error::Error` (keypair/src/error.rs:26-29). -/
inductive KeyError where
  | invalidKeyFormat
  deriving DecidableEq, Repr

/-- `error::DecodingError` (keypair/src/error.rs:33-56). -/
inductive DecodingError where
  | invalidLength
  | ed25519
  | rsa
  | secp256k1
  | keypairDecodingIsNotSupported
  | invalidTypeByte
  | base58DecodeError
  | rawSignatureUnsupportedType
  | publicKeyNotInlined
  deriving DecidableEq, Repr

/-- `error::SigningError` (keypair/src/error.rs:60-75). -/
inductive SigningError where
  | ed25519
  | rsa
  | secp256k1
  deriving DecidableEq, Repr

/-- `error::VerificationError` (keypair/src/error.rs:79-89). -/
inductive VerificationError where
  | ed25519
  | rsa
  | secp256k1
  deriving DecidableEq, Repr

/-- `PublicKey` (keypair/src/public_key.rs:30-38).  Ed25519 keys are valid compressed points (the 32 bytes kept by
`VerifyingKey`, which are also what its equality compares), Secp256k1 keys are given by their canonical 33-byte compressed form,
RSA keys are arbitrary bytes (rsa.rs:69, `from_pkcs1` accepts anything). -/
inductive PublicKey [Env] where
  | ed25519 (b : Bytes) (len : b.length = 32) (valid : Env.edValid b = true)
  | rsa (b : Bytes) (native : Env.wasm = false)
  | secp256k1 (b : Bytes) (len : b.length = 33) (valid : Env.secpValid b = true)
  deriving DecidableEq

/-- `Signature` (keypair/src/signature.rs:26-31): raw bytes labelled with a key format. -/
inductive Signature [Env] where
  | ed25519 (b : Bytes)
  | rsa (b : Bytes) (native : Env.wasm = false)
  | secp256k1 (b : Bytes)
  deriving DecidableEq

/-- `KeyPair` (keypair/src/key_pair.rs:110-118).  An Ed25519 pair is its 32-byte seed, a Secp256k1 pair its
32-byte scalar, an RSA pair its PKCS#8 bytes. -/
inductive KeyPair [Env] where
  | ed25519 (sk : Bytes) (len : sk.length = 32)
  | rsa (kp : Bytes) (native : Env.wasm = false)
  | secp256k1 (sk : Bytes) (len : sk.length = 32) (valid : Env.secpValidSk sk = true)
  deriving DecidableEq

section
variable [Env]

namespace KeyFormat

/-- `KeyFormat::from_str` (key_pair.rs:58-71). -/
def fromStr (s : Str) : Outcome KeyError KeyFormat :=
  if s = "ed25519".toList then .ok .ed25519
  else if s = "secp256k1".toList then .ok .secp256k1
  else if h : s = "rsa".toList ∧ Env.wasm = false then .ok (.rsa h.2)
  else .err .invalidKeyFormat

/-- `TryFrom<u8> for KeyFormat` (key_pair.rs:73-85). -/
def ofByte (v : UInt8) : Outcome DecodingError KeyFormat :=
  if v = 0 then .ok .ed25519
  else if h : v = 1 ∧ Env.wasm = false then .ok (.rsa h.2)
  else if v = 2 then .ok .secp256k1
  else .err .invalidTypeByte

/-- `From<KeyFormat> for u8` (key_pair.rs:87-96). -/
def toByte : KeyFormat → UInt8
  | .ed25519 => 0
  | .rsa _ => 1
  | .secp256k1 => 2

/-- `From<KeyFormat> for String` (key_pair.rs:98-107). -/
def toStr : KeyFormat → Str
  | .ed25519 => "ed25519".toList
  | .rsa _ => "rsa".toList
  | .secp256k1 => "secp256k1".toList

end KeyFormat

namespace Signature

/-- `Signature::get_signature_type` (signature.rs:88-97). -/
def sigType : Signature → KeyFormat
  | .ed25519 _ => .ed25519
  | .rsa _ h => .rsa h
  | .secp256k1 _ => .secp256k1

/-- `Signature::get_prefix` (signature.rs:39-47). -/
def prefixByte (s : Signature) : UInt8 := s.sigType.toByte

/-- `Signature::to_vec` (signature.rs:77-86): the raw bytes, without the label. -/
def raw : Signature → Bytes
  | .ed25519 b => b
  | .rsa b _ => b
  | .secp256k1 b => b

/-- `Signature::encode` (signature.rs:50-63). -/
def encode (s : Signature) : Bytes := s.prefixByte :: s.raw

/-- `Signature::from_bytes` (signature.rs:106-113). -/
def fromBytes : KeyFormat → Bytes → Signature
  | .ed25519, b => .ed25519 b
  | .rsa h, b => .rsa b h
  | .secp256k1, b => .secp256k1 b

/-- `Signature::decode` (signature.rs:66-75); indexing `bytes[0]` panics on an empty vector. -/
def decode : Bytes → Outcome DecodingError Signature
  | [] => .panic
  | b :: rest => do
    let kf ← KeyFormat.ofByte b
    match kf with
    | .ed25519 => .ok (.ed25519 rest)
    | .rsa h => .ok (.rsa rest h)
    | .secp256k1 => .ok (.secp256k1 rest)

end Signature

namespace Ed25519

/-- `ed25519::PublicKey::decode` (ed25519.rs:131-136). -/
def decode (bs : Bytes) : Outcome DecodingError PublicKey :=
  if hl : bs.length = 32 then
    if hv : Env.edValid bs = true then .ok (.ed25519 bs hl hv) else .err .ed25519
  else .err .invalidLength

/-- `ed25519::PublicKey::verify` (ed25519.rs:112-122). -/
def verify (pk msg sig : Bytes) : Outcome VerificationError Unit :=
  if Env.edVerify pk msg sig then .ok () else .err .ed25519

end Ed25519

namespace Secp256k1

/-- `secp256k1::PublicKey::decode` (secp256k1.rs:200-204): `parse_slice` with the compressed format requires 33
bytes. -/
def decode (bs : Bytes) : Outcome DecodingError PublicKey :=
  if hl : bs.length = 33 then
    if hv : Env.secpValid bs = true then .ok (.secp256k1 bs hl hv) else .err .secp256k1
  else .err .secp256k1

/-- `secp256k1::PublicKey::verify_hashed` (secp256k1.rs:171-185).  `Message::parse_slice` needs 32 bytes.  The
boolean result of `libsecp256k1::verify` is computed inside `.map` and then dropped by `.map(|_| ())`. -/
def verifyHashed (pk msg sig : Bytes) : Outcome VerificationError Unit :=
  if msg.length = 32 then
    if Env.secpParseDer sig then
      let _verified : Bool := Env.secpVerify pk msg sig
      .ok ()
    else .err .secp256k1
  else .err .secp256k1

/-- `secp256k1::PublicKey::verify` (secp256k1.rs:166-168). -/
def verify (pk msg sig : Bytes) : Outcome VerificationError Unit :=
  verifyHashed pk (Env.sha256 msg) sig

end Secp256k1

namespace Rsa

/-- `rsa::PublicKey::verify` (rsa.rs:73-82). -/
def verify (pk msg sig : Bytes) : Outcome VerificationError Unit :=
  if Env.rsaVerify pk msg sig then .ok () else .err .rsa

end Rsa

namespace PublicKey

/-- `PublicKey::get_key_format` (public_key.rs:115-124). -/
def keyFormat : PublicKey → KeyFormat
  | .ed25519 .. => .ed25519
  | .rsa _ h => .rsa h
  | .secp256k1 .. => .secp256k1

/-- `PublicKey::get_prefix` (public_key.rs:83-91). -/
def prefixByte (pk : PublicKey) : UInt8 := pk.keyFormat.toByte

/-- `PublicKey::to_vec` (public_key.rs:100-109). -/
def raw : PublicKey → Bytes
  | .ed25519 b _ _ => b
  | .rsa b _ => b
  | .secp256k1 b _ _ => b

/-- `PublicKey::encode` (public_key.rs:56-68). -/
def encode (pk : PublicKey) : Bytes := pk.prefixByte :: pk.raw

/-- `PublicKey::decode` (public_key.rs:70-81); `bytes[0]` panics on an empty slice; `from_pkcs1` (rsa.rs:93-95)
accepts everything. -/
def decode : Bytes → Outcome DecodingError PublicKey
  | [] => .panic
  | b :: rest => do
    let kf ← KeyFormat.ofByte b
    match kf with
    | .ed25519 => Ed25519.decode rest
    | .rsa h => .ok (.rsa rest h)
    | .secp256k1 => Secp256k1.decode rest

/-- `PublicKey::from_base58` (public_key.rs:93-98). -/
def fromBase58 (s : Str) : Outcome DecodingError PublicKey :=
  match Base58.decode s with
  | none => .err .base58DecodeError
  | some bs => decode bs

/-- `PublicKey::verify` (public_key.rs:46-54): only the raw bytes of the signature are used. -/
def verify (pk : PublicKey) (msg : Bytes) (sig : Signature) : Outcome VerificationError Unit :=
  match pk with
  | .ed25519 b _ _ => Ed25519.verify b msg sig.raw
  | .rsa b _ => Rsa.verify b msg sig.raw
  | .secp256k1 b _ _ => Secp256k1.verify b msg sig.raw

end PublicKey

namespace KeyPair

/-- `KeyPair::public` (key_pair.rs:185-193). -/
def pub : KeyPair → PublicKey
  | .ed25519 sk _ => .ed25519 (Env.edPublic sk) (Env.edPublic_length sk) (Env.edPublic_valid sk)
  | .rsa kp h => .rsa (Env.rsaPublic kp) h
  | .secp256k1 sk _ _ =>
    .secp256k1 (Env.secpPublic sk) (Env.secpPublic_length sk) (Env.secpPublic_valid sk)

/-- `KeyPair::key_format` (key_pair.rs:173-182). -/
def keyFormat : KeyPair → KeyFormat
  | .ed25519 .. => .ed25519
  | .rsa _ h => .rsa h
  | .secp256k1 .. => .secp256k1

/-- `KeyPair::sign` (key_pair.rs:160-170), with `ed25519::Keypair::sign` (ed25519.rs:60-62), `rsa::Keypair::sign`
(rsa.rs:57-64) and `secp256k1::SecretKey::sign` / `sign_hashed` (secp256k1.rs:139-157). -/
def sign (kp : KeyPair) (msg : Bytes) : Outcome SigningError Signature :=
  match kp with
  | .ed25519 sk _ => .ok (.ed25519 (Env.edSign sk msg))
  | .rsa k h =>
    match Env.rsaSign k msg with
    | some s => .ok (.rsa s h)
    | none => .err .rsa
  | .secp256k1 sk _ _ =>
    let hash := Env.sha256 msg
    if hash.length = 32 then .ok (.secp256k1 (Env.secpSign sk hash)) else .err .secp256k1

/-- `KeyPair::verify` (key_pair.rs:206-212). -/
def verify (pk : PublicKey) (msg : Bytes) (sig : Signature) : Outcome VerificationError Unit :=
  pk.verify msg sig

/-- `KeyPair::secret` (key_pair.rs:195-203); for RSA it is an error. -/
def secret : KeyPair → Outcome Unit Bytes
  | .ed25519 sk _ => .ok sk
  | .rsa .. => .err ()
  | .secp256k1 sk _ _ => .ok sk

/-- `KeyPair::to_vec` (key_pair.rs:214-222); `ed25519::Keypair::encode` is seed ++ public point (ed25519.rs:42-44); RSA is
`todo!()`. -/
def toVec : KeyPair → Outcome Unit Bytes
  | .ed25519 sk _ => .ok (sk ++ Env.edPublic sk)
  | .rsa .. => .panic
  | .secp256k1 sk _ _ => .ok sk

/-- `ed25519::Keypair::decode` (ed25519.rs:48-57): 64 bytes; `SigningKey::from_keypair_bytes` parses the second half
as a point and compares it with the public key of the first half. -/
def edDecode (bs : Bytes) : Outcome DecodingError KeyPair :=
  if bs.length = 64 then
    if hl : (bs.take 32).length = 32 then
      if Env.edPublic (bs.take 32) = bs.drop 32 then .ok (.ed25519 (bs.take 32) hl)
      else .err .ed25519
    else .err .invalidLength
  else .err .invalidLength

/-- `secp256k1::SecretKey::from_bytes` followed by `Keypair::from` (secp256k1.rs:109-115, 67-72). -/
def secpFromBytes (bs : Bytes) : Outcome DecodingError KeyPair :=
  if hl : bs.length = 32 then
    if hv : Env.secpValidSk bs = true then .ok (.secp256k1 bs hl hv) else .err .secp256k1
  else .err .secp256k1

/-- `KeyPair::from_vec` (key_pair.rs:224-233). -/
def fromVec (bs : Bytes) : KeyFormat → Outcome DecodingError KeyPair
  | .ed25519 => edDecode bs
  | .secp256k1 => secpFromBytes bs
  | .rsa _ => .err .keypairDecodingIsNotSupported

/-- `KeyPair::from_secret_key` (key_pair.rs:235-244), with `ed25519::SecretKey::from_bytes` (ed25519.rs:166-171). -/
def fromSecretKey (bs : Bytes) : KeyFormat → Outcome DecodingError KeyPair
  | .ed25519 => if hl : bs.length = 32 then .ok (.ed25519 bs hl) else .err .invalidLength
  | .secp256k1 => secpFromBytes bs
  | .rsa _ => .err .keypairDecodingIsNotSupported

end KeyPair

end

/-- Laws of the parameters that only some theorems need: signing and verifying fit together. -/
class LawfulEnv extends Env where
  ed_sign : ∀ sk msg, edVerify (edPublic sk) msg (edSign sk msg) = true
  secp_sign_der : ∀ sk h, secpParseDer (secpSign sk h) = true
  secp_sign : ∀ sk h, secpVerify (secpPublic sk) h (secpSign sk h) = true
  rsa_sign : ∀ kp msg s, rsaSign kp msg = some s → rsaVerify (rsaPublic kp) msg s = true
  /-- The protobuf reader reads back what `encode_protobuf` writes for data of at most 127 bytes. -/
  pb_roundtrip : ∀ (t : Nat) (data : Bytes), t ≤ 2 → data.length < 128 →
    pbDecode ([0x08, UInt8.ofNat t, 0x12, UInt8.ofNat data.length] ++ data) = some (t, data)

end TG
