/-
Peer ids (/repo/keypair/src/public_key.rs:111-113, 127-204).

`PeerId`, its text form and the multihash layout belong to libp2p-identity 0.2 / multihash 0.18 and are modelled by
their documented format: `code, length, digest`, where the code is 0x00 (identity, at most 42 bytes, the protobuf of the
public key itself) or 0x12 (SHA-256 of it), written in base58.  Only the protobuf reader is a parameter (`Env.pbDecode`).
-/
import Verif.Model.Der

namespace TG

/-- `libp2p_identity::PeerId` (used in public_key.rs:111-113, 184-204): a multihash with code identity (`inlined = true`) or sha2-256. -/
structure PeerId where
  inlined : Bool
  digest : Bytes
  deriving DecidableEq, Repr

/-- Unsigned LEB128, for the protobuf of public_key.rs:112 (`fuel ≥ n` suffices). -/
def varint : Nat → Nat → Bytes
  | 0, n => [UInt8.ofNat n]
  | fuel + 1, n => if n < 128 then [UInt8.ofNat n] else UInt8.ofNat (n % 128 + 128) :: varint fuel (n / 128)

/-- `libp2p_identity::PublicKey::encode_protobuf` (used through public_key.rs:112): field 1 (`Type`) and field 2 (`Data`). -/
def pbEncode (type : Nat) (data : Bytes) : Bytes :=
  [0x08, UInt8.ofNat type, 0x12] ++ varint data.length data.length ++ data

namespace PeerId

/-- `PeerId::to_bytes` (used through dto.rs:99). -/
def toBytes (p : PeerId) : Bytes :=
  (if p.inlined then 0x00 else 0x12) :: UInt8.ofNat p.digest.length :: p.digest

/-- `PeerId::from_bytes` (used through dto.rs:81, misc.rs:49): multihash of at most 64 bytes, minimal one-byte varints, no trailing bytes, identity digests of at
most 42 bytes. -/
def fromBytes : Bytes → Option PeerId
  | c :: n :: d =>
    if d.length = n.toNat ∧ n.toNat ≤ 64 then
      if c = 0x12 then some ⟨false, d⟩
      else if c = 0x00 ∧ d.length ≤ 42 then some ⟨true, d⟩
      else none
    else none
  | _ => none

/-- `PeerId::to_base58` / `Display` (dto.rs:99, keypair/src/lib.rs:52). -/
def toBase58 (p : PeerId) : Str := Base58.encode p.toBytes

/-- `PeerId::from_str` (dto.rs:81, misc.rs:49, keypair/src/lib.rs:60). -/
def fromStr (s : Str) : Option PeerId :=
  match Base58.decode s with
  | none => none
  | some bs => fromBytes bs

end PeerId

section
variable [Env]

/-- `From<PublicKey> for libp2p_identity::PublicKey` (public_key.rs:155-182): key type number of the protobuf
enum (RSA 0, Ed25519 1, Secp256k1 2) and the raw key.  The conversions re-parse bytes that were produced by the same
libraries, so the `expect` on line 180 is not a failure path. -/
def PublicKey.toLibp2p : PublicKey → Nat × Bytes
  | .ed25519 b _ _ => (1, b)
  | .rsa b _ => (0, Der.encodeX509 b)
  | .secp256k1 b _ _ => (2, b)

/-- `PublicKey::to_peer_id` (public_key.rs:111-113) through `PeerId::from_public_key`: inlined if the protobuf has at most
42 bytes. -/
def PublicKey.toPeerId (pk : PublicKey) : PeerId :=
  let enc := pbEncode pk.toLibp2p.1 pk.toLibp2p.2
  if enc.length ≤ 42 then ⟨true, enc⟩ else ⟨false, Env.sha256 enc⟩

/-- `libp2p_identity::PublicKey::try_decode_protobuf(..).ok()` followed by `From<libp2p_identity::PublicKey>`
(public_key.rs:127-153): libp2p validates the key bytes with the same libraries as this crate; RSA is
unavailable on wasm32, ECDSA is not enabled. -/
def PublicKey.ofProtobuf (bs : Bytes) : Option PublicKey :=
  match Env.pbDecode bs with
  | none => none
  | some (t, data) =>
    if t = 1 then (Ed25519.decode data).toOption
    else if t = 2 then (Secp256k1.decode data).toOption
    else if h : t = 0 ∧ Env.wasm = false then
      match Der.decodeX509 data with
      | some b => some (.rsa b h.2)
      | none => none
    else none

/-- `TryFrom<PeerId> for PublicKey` and `as_public_key` (public_key.rs:184-204). -/
def PublicKey.ofPeerId (p : PeerId) : Outcome DecodingError PublicKey :=
  if p.inlined then .ofOption .publicKeyNotInlined (PublicKey.ofProtobuf p.digest)
  else .err .publicKeyNotInlined

end

end TG
