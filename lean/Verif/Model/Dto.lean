/-
Model of /repo/service/src/dto.rs: the records exchanged with callers of the service.
-/
import Verif.Model.Certificate
import Verif.Model.PeerId

namespace TG

/-- `DtoConversionError` (dto.rs:11-33); texts dropped. -/
inductive DtoError where
  | base58Error
  | publicKeyDecodeError (e : DecodingError)
  | peerIdDecodeError
  | invalidKeyFormat (e : KeyError)
  deriving DecidableEq, Repr

/-- `dto::Trust` (dto.rs:61-74). -/
structure TrustDto where
  issuedFor : Str
  expiresAt : UInt64
  signature : Str
  sigType : Str
  issuedAt : UInt64
  deriving DecidableEq, Repr

/-- `#[derive(Default)]` for `dto::Trust` (dto.rs:62). -/
def TrustDto.default : TrustDto := ⟨[], 0, [], [], 0⟩

/-- `dto::Certificate` (dto.rs:35-38). -/
structure CertDto where
  chain : List TrustDto
  deriving DecidableEq, Repr

/-- `dto::Revocation` (dto.rs:114-127). -/
structure RevocationDto where
  revokedPeerId : Str
  revokedAt : UInt64
  signature : Str
  sigType : Str
  revokedBy : Str
  deriving DecidableEq, Repr

/-- `#[derive(Default)]` for `dto::Revocation` (dto.rs:115). -/
def RevocationDto.default : RevocationDto := ⟨[], 0, [], [], []⟩

variable [Env]

namespace Dto

/-- The expression `PublicKey::try_from(PeerId::from_str(..)?)` of dto.rs:80-83, 133-137, 138-141. -/
def keyOfPeerId (s : Str) : Outcome DtoError PublicKey :=
  match PeerId.fromStr s with
  | none => .err .peerIdDecodeError
  | some p => (PublicKey.ofPeerId p).mapErr (fun _ => .peerIdDecodeError)

/-- The two lines reading the signature (dto.rs:84-85, 142-143). -/
def readSignature (signature sigType : Str) : Outcome DtoError Signature := do
  let bytes ← Outcome.ofOption .base58Error (Base58.decode signature)
  let kf ← (KeyFormat.fromStr sigType).mapErr .invalidKeyFormat
  .ok (Signature.fromBytes kf bytes)

/-- `TryFrom<dto::Trust> for trust_graph::Trust` (dto.rs:76-95). -/
def toTrust (t : TrustDto) : Outcome DtoError Trust := do
  let issuedFor ← keyOfPeerId t.issuedFor
  let signature ← readSignature t.signature t.sigType
  .ok { issuedFor, expiresAt := .ofSecs t.expiresAt, signature, issuedAt := .ofSecs t.issuedAt }

/-- `From<trust_graph::Trust> for dto::Trust` (dto.rs:97-112). -/
def ofTrust (t : Trust) : TrustDto where
  issuedFor := t.issuedFor.toPeerId.toBase58
  expiresAt := t.expiresAt.secs
  signature := Base58.encode t.signature.raw
  sigType := t.signature.sigType.toStr
  issuedAt := t.issuedAt.secs

/-- `TryFrom<dto::Revocation> for trust_graph::Revocation` (dto.rs:129-152). -/
def toRevocation (r : RevocationDto) : Outcome DtoError Revocation := do
  let pk ← keyOfPeerId r.revokedPeerId
  let revokedBy ← keyOfPeerId r.revokedBy
  let signature ← readSignature r.signature r.sigType
  .ok { pk, revokedAt := .ofSecs r.revokedAt, revokedBy, signature }

/-- `From<trust_graph::Revocation> for dto::Revocation` (dto.rs:154-169). -/
def ofRevocation (r : Revocation) : RevocationDto where
  revokedPeerId := r.pk.toPeerId.toBase58
  revokedAt := r.revokedAt.secs
  signature := Base58.encode r.signature.raw
  sigType := r.signature.sigType.toStr
  revokedBy := r.revokedBy.toPeerId.toBase58

/-- Collecting an iterator of results into `Result<Vec<_>, _>` (dto.rs:51-56). -/
def collect {ε α β : Type} (f : α → Outcome ε β) : List α → Outcome ε (List β)
  | [] => .ok []
  | a :: as => do
    let b ← f a
    let bs ← collect f as
    .ok (b :: bs)

/-- `TryFrom<dto::Certificate> for trust_graph::Certificate` (dto.rs:47-59). -/
def toCertificate (c : CertDto) : Outcome DtoError Certificate := do
  let chain ← collect toTrust c.chain
  .ok ⟨chain⟩

/-- `From<trust_graph::Certificate> for dto::Certificate` (dto.rs:40-45). -/
def ofCertificate (c : Certificate) : CertDto := ⟨c.chain.map ofTrust⟩

end Dto

end TG
