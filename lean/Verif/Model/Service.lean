/-
Model of /repo/service/src/{service_api,misc,results,error}.rs: the calls exported by the Marine service.

A call gets the `CallParameters` that the Marine runtime supplies and acts on the database: `Db`, or the interpreter of the SQL texts (`Sql.File`).  All exported functions return
result records instead of errors; a panic (trap) is the outcome `panic`.
-/
import Verif.Model.Dto
import Verif.Model.Sqlite

namespace TG

/-- `marine_rs_sdk::SecurityTetraplet` (read in misc.rs:39-43), without the JSON path. -/
structure Tetraplet where
  peerPk : Str
  serviceId : Str
  functionName : Str
  deriving DecidableEq, Repr

/-- `marine_rs_sdk::CallParameters` (misc.rs:32, service_api.rs:20), restricted to the fields the service reads. -/
structure CallParams where
  initPeerId : Str
  serviceCreatorPeerId : Str
  hostId : Str
  /-- for every argument the origins of its value -/
  tetraplets : List (List Tetraplet)
  deriving DecidableEq, Repr

/-- `ServiceError` (error.rs:23-64); texts dropped. -/
inductive ServiceError where
  | peerIdParseError
  | publicKeyExtractionError
  | publicKeyDecodeError (e : DecodingError)
  | tgError (e : TrustGraphError)
  | certError (e : CertificateError)
  | dtoError (e : DtoError)
  | trustError (e : TrustError)
  | invalidTimestampTetraplet
  | invalidTimestamp
  | notOwner
  deriving DecidableEq, Repr

/-- A result record of results.rs: every one has `success`, `error` and at most some payload.  The `error` string is kept as the error
value (`none` is the empty string). -/
structure Res (α : Type) where
  success : Bool
  error : Option ServiceError
  payload : α
  deriving DecidableEq, Repr

/-- `From<Result<T, ServiceError>>` of all result records (results.rs:11-281), with the payload given on failure. -/
def Res.ofOutcome {α : Type} (neutral : α) : Outcome ServiceError α → Outcome Empty (Res α)
  | .ok a => .ok ⟨true, none, a⟩
  | .err e => .ok ⟨false, some e, neutral⟩
  | .panic => .panic
  | .diverge => .diverge

variable [Env]

namespace Service
variable {S σ : Type} [Storage S σ]

/-- Running a fallible closure and converting it with `.into()` (`wrapped_try`, misc.rs:64-69). -/
def into {α : Type} (neutral : α) (x : M S ServiceError α) : M S Empty (Res α) := fun s =>
  (Res.ofOutcome neutral (x s).1, (x s).2)

/-- `?` on results of `TrustGraph` methods, run by `with_tg` (misc.rs:53-62). -/
def tg {α : Type} (x : M S TrustGraphError α) : M S ServiceError α := x.mapErr .tgError

/-- `TRUSTED_TIMESTAMP` (main.rs:17). -/
def trustedTimestamp : Str × Str := ("peer".toList, "timestamp_sec".toList)

/-- `check_timestamp_tetraplets` (misc.rs:29-46). -/
def checkTimestampTetraplets (cp : CallParams) (argNumber : Nat) : Outcome ServiceError Unit :=
  match cp.tetraplets[argNumber]? with
  | none => .err .invalidTimestampTetraplet
  | some ts =>
    match ts.head? with
    | none => .err .invalidTimestampTetraplet
    | some t =>
      if trustedTimestamp = (t.serviceId, t.functionName) ∧ t.peerPk = cp.hostId then .ok ()
      else .err .invalidTimestampTetraplet

/-- `parse_peer_id` and `extract_public_key` (misc.rs:48-51, 71-77). -/
def extractPublicKey (peerId : Str) : Outcome ServiceError PublicKey :=
  match PeerId.fromStr peerId with
  | none => .err .publicKeyExtractionError
  | some p => (PublicKey.ofPeerId p).mapErr .publicKeyDecodeError

/-- `set_root` (service_api.rs:17-35). -/
def setRoot (cp : CallParams) (peerId : Str) (maxChainLen : UInt32) : M S Empty (Res Unit) :=
  if cp.serviceCreatorPeerId = cp.initPeerId then
    into () (do
      let pk ← M.lift (extractPublicKey peerId)
      tg (TrustGraph.setRoot pk maxChainLen.toNat))
  else pure ⟨false, some .notOwner, ()⟩

/-- `insert_cert_raw` (service_api.rs:37-48). -/
def insertCertRaw (_cp : CallParams) (certificate : Str) (timestampSec : UInt64) : M S Empty (Res Unit) :=
  into () (do
    let c ← M.lift ((Certificate.fromStr certificate).mapErr .certError)
    tg (TrustGraph.add c (.ofSecs timestampSec)))

/-- `insert_cert` (service_api.rs:50-63). -/
def insertCert (_cp : CallParams) (certificate : CertDto) (timestampSec : UInt64) : M S Empty (Res Unit) :=
  into () (do
    let c ← M.lift ((Dto.toCertificate certificate).mapErr .dtoError)
    tg (TrustGraph.add c (.ofSecs timestampSec)))

/-- `get_certs` (service_api.rs:65-73). -/
def getCerts (issuedFor : Str) (timestampSec : UInt64) : M S ServiceError (List CertDto) := do
  let pk ← M.lift (extractPublicKey issuedFor)
  let certs ← tg (TrustGraph.getAllCerts pk (.ofSecs timestampSec))
  pure (certs.map Dto.ofCertificate)

/-- `get_certs_from` (service_api.rs:75-86). -/
def getCertsFrom (issuedFor issuer : Str) (timestampSec : UInt64) : M S ServiceError (List CertDto) := do
  let issuedForPk ← M.lift (extractPublicKey issuedFor)
  let issuerPk ← M.lift (extractPublicKey issuer)
  let certs ← tg (TrustGraph.getAllCertsFrom issuedForPk issuerPk (.ofSecs timestampSec))
  pure (certs.map Dto.ofCertificate)

/-- `get_all_certs` (service_api.rs:88-95). -/
def getAllCerts (cp : CallParams) (issuedFor : Str) (timestampSec : UInt64) :
    M S Empty (Res (List CertDto)) :=
  into [] (do
    M.lift (checkTimestampTetraplets cp 1)
    getCerts issuedFor timestampSec)

/-- `get_all_certs_from` (service_api.rs:97-105). -/
def getAllCertsFrom (cp : CallParams) (issuedFor issuer : Str) (timestampSec : UInt64) :
    M S Empty (Res (List CertDto)) :=
  into [] (do
    M.lift (checkTimestampTetraplets cp 2)
    getCertsFrom issuedFor issuer timestampSec)

/-- `get_host_certs` (service_api.rs:107-115). -/
def getHostCerts (cp : CallParams) (timestampSec : UInt64) : M S Empty (Res (List CertDto)) :=
  into [] (do
    M.lift (checkTimestampTetraplets cp 0)
    getCerts cp.hostId timestampSec)

/-- `get_host_certs_from` (service_api.rs:117-125). -/
def getHostCertsFrom (cp : CallParams) (issuer : Str) (timestampSec : UInt64) :
    M S Empty (Res (List CertDto)) :=
  into [] (do
    M.lift (checkTimestampTetraplets cp 1)
    getCertsFrom cp.hostId issuer timestampSec)

/-- `get_weight` (service_api.rs:127-137). -/
def getWeight (cp : CallParams) (peerId : Str) (timestampSec : UInt64) : M S Empty (Res (Nat × Str)) :=
  into (0, []) (do
    M.lift (checkTimestampTetraplets cp 1)
    let pk ← M.lift (extractPublicKey peerId)
    let w ← tg (TrustGraph.weight pk (.ofSecs timestampSec))
    pure (w, peerId))

/-- `get_weight_from` (service_api.rs:139-151): it checks the tetraplets of argument 1, the issuer. -/
def getWeightFrom (cp : CallParams) (peerId issuer : Str) (timestampSec : UInt64) :
    M S Empty (Res (Nat × Str)) :=
  into (0, []) (do
    M.lift (checkTimestampTetraplets cp 1)
    let issuedForPk ← M.lift (extractPublicKey peerId)
    let issuerPk ← M.lift (extractPublicKey issuer)
    let w ← tg (TrustGraph.weightFrom issuedForPk issuerPk (.ofSecs timestampSec))
    pure (w, peerId))

/-- `get_trust_bytes` (service_api.rs:153-169). -/
def getTrustBytes (_cp : CallParams) (issuedFor : Str) (expiresAt issuedAt : UInt64) :
    M S Empty (Res Bytes) :=
  into [] (do
    let pk ← M.lift (extractPublicKey issuedFor)
    pure (Trust.signatureBytes pk (.ofSecs expiresAt) (.ofSecs issuedAt)))

/-- `issue_trust` (service_api.rs:171-191): the signature is labelled with the key format of the *recipient*. -/
def issueTrust (_cp : CallParams) (issuedFor : Str) (expiresAt issuedAt : UInt64) (trustBytes : Bytes) :
    M S Empty (Res TrustDto) :=
  into TrustDto.default (do
    let pk ← M.lift (extractPublicKey issuedFor)
    let signature := Signature.fromBytes pk.keyFormat trustBytes
    pure (Dto.ofTrust (Trust.new pk (.ofSecs expiresAt) (.ofSecs issuedAt) signature)))

/-- `verify_trust` (service_api.rs:193-207). -/
def verifyTrust (cp : CallParams) (trust : TrustDto) (issuer : Str) (timestampSec : UInt64) :
    M S Empty (Res Unit) :=
  into () (do
    M.lift (checkTimestampTetraplets cp 2)
    let pk ← M.lift (extractPublicKey issuer)
    let t ← M.lift ((Dto.toTrust trust).mapErr .dtoError)
    M.lift ((t.verify pk (.ofSecs timestampSec)).mapErr .trustError))

/-- `add_trust` (service_api.rs:209-226). -/
def addTrust (cp : CallParams) (trust : TrustDto) (issuer : Str) (timestampSec : UInt64) :
    M S Empty (Res Nat) :=
  into 0 (do
    let pk ← M.lift (extractPublicKey issuer)
    M.lift (checkTimestampTetraplets cp 2)
    if trust.issuedAt.toNat > timestampSec.toNat then M.fail .invalidTimestamp
    else do
      let t ← M.lift ((Dto.toTrust trust).mapErr .dtoError)
      tg (TrustGraph.addTrust t pk (.ofSecs timestampSec)))

/-- `get_revocation_bytes` (service_api.rs:228-238). -/
def getRevocationBytes (_cp : CallParams) (revokedPeerId : Str) (revokedAt : UInt64) :
    M S Empty (Res Bytes) :=
  into [] (do
    let pk ← M.lift (extractPublicKey revokedPeerId)
    pure (Revocation.signatureBytes pk (.ofSecs revokedAt)))

/-- `issue_revocation` (service_api.rs:240-256). -/
def issueRevocation (_cp : CallParams) (revokedBy revoked : Str) (revokedAt : UInt64)
    (signatureBytes : Bytes) : M S Empty (Res RevocationDto) :=
  into RevocationDto.default (do
    let revokedPk ← M.lift (extractPublicKey revoked)
    let revokedByPk ← M.lift (extractPublicKey revokedBy)
    let signature := Signature.fromBytes revokedByPk.keyFormat signatureBytes
    pure (Dto.ofRevocation (Revocation.new revokedByPk revokedPk (.ofSecs revokedAt) signature)))

/-- `revoke` (service_api.rs:258-270). -/
def revoke (cp : CallParams) (r : RevocationDto) (timestampSec : UInt64) : M S Empty (Res Unit) :=
  into () (do
    M.lift (checkTimestampTetraplets cp 1)
    if r.revokedAt.toNat > timestampSec.toNat then M.fail .invalidTimestamp
    else do
      let rev ← M.lift ((Dto.toRevocation r).mapErr .dtoError)
      tg (TrustGraph.revoke rev))

/-- `export_revocations` (service_api.rs:272-283). -/
def exportRevocations (_cp : CallParams) (issuedFor : Str) : M S Empty (Res (List RevocationDto)) :=
  into [] (do
    let pk ← M.lift (extractPublicKey issuedFor)
    let rs ← tg (TrustGraph.getRevocations pk)
    pure (rs.map Dto.ofRevocation))

end Service

end TG
