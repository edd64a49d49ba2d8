/-
Why a call was refused, as far as it matters to a caller.
-/
import Verif.Model.Service

namespace TG.Spec

/-- The reasons. -/
inductive Reason where
  /-- Only the creator of the service may do this. -/
  | notOwner
  /-- The timestamp is not that of the node. -/
  | timestamp
  /-- The trust or the revocation is dated later than the timestamp. -/
  | future
  /-- A peer id, key, signature or certificate cannot be read. -/
  | unreadable
  /-- A trust has expired (or expires before it is issued). -/
  | expired
  /-- A signature is wrong. -/
  | signature
  /-- The storage has failed. -/
  | storage
  /-- A certificate or a path does not begin at a root. -/
  | noRoot
  /-- A certificate has too few trusts. -/
  | tooShort
  /-- A key does not occur where it should. -/
  | noKey
  /-- What the library believes to be impossible. -/
  | impossible
  deriving DecidableEq

open Reason

/-- The reason of a refused trust. -/
def ofTrust : TrustError → Reason
  | .expired => expired
  | .signatureError _ => signature
  | _ => unreadable

/-- The reason of a refused certificate. -/
def ofCertificate : CertificateError → Reason
  | .incorrectCertificateFormat => unreadable
  | .incorrectByteLength => unreadable
  | .decodeError _ => unreadable
  | .expirationError => expired
  | .malformedRoot e => ofTrust e
  | .decodeTrustError _ _ => unreadable
  | .verificationError _ e => ofTrust e
  | .noTrustedRoot => noRoot
  | .keyInCertificateError => noKey
  | .certificateLengthError => tooShort
  | .unexpected => impossible

/-- The reason of an error of the library. -/
def ofGraph : TrustGraphError → Reason
  | .internalStorageError => storage
  | .noRoot => noRoot
  | .emptyChain => tooShort
  | .certificateCheckError e => ofCertificate e
  | .revokeCheckError _ => signature
  | .addTrustError => noKey
  | .trustVerificationError e => ofTrust e

/-- The reason of an error of the service. -/
def reason : ServiceError → Reason
  | .peerIdParseError => unreadable
  | .publicKeyExtractionError => unreadable
  | .publicKeyDecodeError _ => unreadable
  | .tgError e => ofGraph e
  | .certError e => ofCertificate e
  | .dtoError _ => unreadable
  | .trustError e => ofTrust e
  | .invalidTimestampTetraplet => timestamp
  | .invalidTimestamp => future
  | .notOwner => notOwner

end TG.Spec
