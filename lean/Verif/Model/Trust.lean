/-
Model of /repo/trust-graph/src/trust.rs and /repo/trust-graph/src/revoke.rs.
-/
import Verif.Model.Keypair
import Verif.Model.Text

namespace TG

/-- `TrustError` (trust.rs:60-93); texts dropped. -/
inductive TrustError where
  | expired
  | signatureError (e : VerificationError)
  | decodePublicKeyError (e : DecodingError)
  | parseError
  | base58DecodeError
  | publicKeyError (e : DecodingError)
  | decodeErrorInvalidSize
  deriving DecidableEq, Repr

/-- `RevokeError` (revoke.rs:26-34). -/
inductive RevokeError where
  | incorrectSignature (e : VerificationError)
  deriving DecidableEq, Repr

variable [Env]

/-- `Trust` (trust.rs:38-50). -/
structure Trust where
  issuedFor : PublicKey
  expiresAt : Dur
  signature : Signature
  issuedAt : Dur
  deriving DecidableEq

/-- `Revocation` (revoke.rs:39-48). -/
structure Revocation where
  pk : PublicKey
  revokedAt : Dur
  revokedBy : PublicKey
  signature : Signature
  deriving DecidableEq

namespace Trust

/-- `Trust::new` (trust.rs:97-109). -/
def new (issuedFor : PublicKey) (expiresAt issuedAt : Dur) (signature : Signature) : Trust :=
  { issuedFor, expiresAt, signature, issuedAt }

/-- The bytes hashed by `Trust::signature_bytes` (trust.rs:145-153). -/
def metadata (pk : PublicKey) (expiresAt issuedAt : Dur) : Bytes :=
  pk.encode ++ le8 expiresAt.secs ++ le8 issuedAt.secs

/-- `Trust::signature_bytes` (trust.rs:145-156). -/
def signatureBytes (pk : PublicKey) (expiresAt issuedAt : Dur) : Bytes :=
  Env.sha256 (metadata pk expiresAt issuedAt)

/-- `Trust::create` (trust.rs:111-127); a signing error is unwrapped, i.e. panics. -/
def create (issuedBy : KeyPair) (issuedFor : PublicKey) (expiresAt issuedAt : Dur) :
    Outcome Empty Trust := do
  let msg := signatureBytes issuedFor expiresAt issuedAt
  let signature ← (issuedBy.sign msg).unwrap
  .ok { issuedFor, expiresAt, signature, issuedAt }

/-- `Trust::verify` (trust.rs:130-143). -/
def verify (t : Trust) (issuedBy : PublicKey) (curTime : Dur) : Outcome TrustError Unit :=
  if t.expiresAt.lt curTime then .err .expired
  else (KeyPair.verify issuedBy (signatureBytes t.issuedFor t.expiresAt t.issuedAt) t.signature).mapErr
    .signatureError

/-- `Trust::encode` (trust.rs:160-172); lengths are cast with `as u8`. -/
def encode (t : Trust) : Bytes :=
  let pk := t.issuedFor.encode
  let sig := t.signature.encode
  UInt8.ofNat pk.length :: (pk ++ (UInt8.ofNat sig.length :: (sig ++ (le8 t.expiresAt.secs ++ le8 t.issuedAt.secs))))

/-- `Trust::check_arr_len` (trust.rs:174-180). -/
def checkArrLen (arr : Bytes) (n : Nat) : Outcome TrustError Unit :=
  if arr.length < n then .err .decodeErrorInvalidSize else .ok ()

/-- `arr[i]` (trust.rs:184-219): panics when out of range. -/
def index (arr : Bytes) (i : Nat) : Outcome TrustError UInt8 :=
  match arr[i]? with
  | some b => .ok b
  | none => .panic

/-- `&arr[from..to]` (trust.rs:184-219): panics when out of range. -/
def slice (arr : Bytes) (lo hi : Nat) : Outcome TrustError Bytes :=
  if lo ≤ hi ∧ hi ≤ arr.length then .ok ((arr.drop lo).take (hi - lo)) else .panic

/-- `u64::from_le_bytes(bytes.try_into().unwrap())` (trust.rs:184-219): panics unless there are exactly 8 bytes. -/
def leU64 (bs : Bytes) : Outcome TrustError UInt64 :=
  match ofLe8 bs with
  | some x => .ok x
  | none => .panic

/-- `Trust::decode` (trust.rs:184-219). -/
def decode (arr : Bytes) : Outcome TrustError Trust := do
  checkArrLen arr 1
  let pkLen := (← index arr 0).toNat
  let offset := 1
  checkArrLen arr (offset + pkLen)
  let pk ← (PublicKey.decode (← slice arr offset (offset + pkLen))).mapErr .publicKeyError
  let offset := offset + pkLen
  checkArrLen arr (offset + 1)
  let sigLen := (← index arr offset).toNat
  let offset := offset + 1
  checkArrLen arr (offset + sigLen)
  let signature ← (Signature.decode (← slice arr offset (offset + sigLen))).mapErr .publicKeyError
  let offset := offset + sigLen
  checkArrLen arr (offset + 8)
  let expiration ← leU64 (← slice arr offset (offset + 8))
  let offset := offset + 8
  checkArrLen arr (offset + 8)
  let issued ← leU64 (← slice arr offset arr.length)
  .ok { issuedFor := pk, signature, expiresAt := .ofSecs expiration, issuedAt := .ofSecs issued }

/-- `Trust::bs58_str_to_vec` (trust.rs:221-225). -/
def bs58StrToVec (s : Str) : Outcome TrustError Bytes :=
  .ofOption .base58DecodeError (Base58.decode s)

/-- `Trust::str_to_duration` (trust.rs:227-232). -/
def strToDuration (s : Str) : Outcome TrustError Dur :=
  match parseU64 s with
  | some x => .ok (.ofSecs x)
  | none => .err .parseError

/-- `Trust::convert_from_strings` (trust.rs:234-256). -/
def convertFromStrings (issuedFor signature expiresAt issuedAt : Str) : Outcome TrustError Trust := do
  let pkBytes ← bs58StrToVec issuedFor
  let pk ← (PublicKey.decode pkBytes).mapErr .decodePublicKeyError
  let sigBytes ← bs58StrToVec signature
  let sig ← (Signature.decode sigBytes).mapErr .publicKeyError
  let expiresAt ← strToDuration expiresAt
  let issuedAt ← strToDuration issuedAt
  .ok (Trust.new pk expiresAt issuedAt sig)

/-- The four lines written by `Trust::to_string` (trust.rs:259-268). -/
def textLines (t : Trust) : List Str :=
  [Base58.encode t.issuedFor.encode, Base58.encode t.signature.encode, showU64 t.expiresAt.secs,
   showU64 t.issuedAt.secs]

/-- `Trust::to_string` (trust.rs:259-268). -/
def toText (t : Trust) : Str :=
  Base58.encode t.issuedFor.encode ++ '\n' :: (Base58.encode t.signature.encode ++ '\n' ::
    (showU64 t.expiresAt.secs ++ '\n' :: showU64 t.issuedAt.secs))

end Trust

namespace Revocation

/-- `Revocation::new` (revoke.rs:51-63). -/
def new (revokedBy pk : PublicKey) (revokedAt : Dur) (signature : Signature) : Revocation :=
  { pk, revokedAt, revokedBy, signature }

/-- The bytes hashed by `Revocation::signature_bytes` (revoke.rs:73-78). -/
def metadata (pk : PublicKey) (revokedAt : Dur) : Bytes :=
  UInt8.ofNat pk.encode.length :: (pk.encode ++ le8 revokedAt.secs)

/-- `Revocation::signature_bytes` (revoke.rs:73-81). -/
def signatureBytes (pk : PublicKey) (revokedAt : Dur) : Bytes := Env.sha256 (metadata pk revokedAt)

/-- `Revocation::create` (revoke.rs:66-71). -/
def create (revoker : KeyPair) (toRevoke : PublicKey) (revokedAt : Dur) : Outcome Empty Revocation := do
  let msg := signatureBytes toRevoke revokedAt
  let signature ← (revoker.sign msg).unwrap
  .ok (new revoker.pub toRevoke revokedAt signature)

/-- `Revocation::verify` (revoke.rs:84-91). -/
def verify (r : Revocation) : Outcome RevokeError Unit :=
  (r.revokedBy.verify (signatureBytes r.pk r.revokedAt) r.signature).mapErr .incorrectSignature

end Revocation

end TG
