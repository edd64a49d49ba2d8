/-
Calls of the service as data, and what it means that a timestamp comes from the host.
-/
import Verif.Model.Service
import Verif.Spec.Ops

namespace TG

/-- The calls exported by the service (service/src/service_api.rs). -/
inductive Call where
  | setRoot (peerId : Str) (maxChainLen : UInt32)
  | insertCertRaw (certificate : Str) (timestamp : UInt64)
  | insertCert (certificate : CertDto) (timestamp : UInt64)
  | getAllCerts (issuedFor : Str) (timestamp : UInt64)
  | getAllCertsFrom (issuedFor issuer : Str) (timestamp : UInt64)
  | getHostCerts (timestamp : UInt64)
  | getHostCertsFrom (issuer : Str) (timestamp : UInt64)
  | getWeight (peerId : Str) (timestamp : UInt64)
  | getWeightFrom (peerId issuer : Str) (timestamp : UInt64)
  | getTrustBytes (issuedFor : Str) (expiresAt issuedAt : UInt64)
  | issueTrust (issuedFor : Str) (expiresAt issuedAt : UInt64) (trustBytes : Bytes)
  | verifyTrust (trust : TrustDto) (issuer : Str) (timestamp : UInt64)
  | addTrust (trust : TrustDto) (issuer : Str) (timestamp : UInt64)
  | getRevocationBytes (revokedPeerId : Str) (revokedAt : UInt64)
  | issueRevocation (revokedBy revoked : Str) (revokedAt : UInt64) (signatureBytes : Bytes)
  | revoke (revocation : RevocationDto) (timestamp : UInt64)
  | exportRevocations (issuedFor : Str)

namespace Call

/-- Which argument of the call is its timestamp (counted from 0), if it has one. -/
def timestampArg : Call → Option Nat
  | .insertCertRaw .. => some 1
  | .insertCert .. => some 1
  | .getAllCerts .. => some 1
  | .getAllCertsFrom .. => some 2
  | .getHostCerts .. => some 0
  | .getHostCertsFrom .. => some 1
  | .getWeight .. => some 1
  | .getWeightFrom .. => some 2
  | .verifyTrust .. => some 2
  | .addTrust .. => some 2
  | .revoke .. => some 1
  | _ => none

/-- The value of that argument. -/
def timestamp : Call → Option UInt64
  | .insertCertRaw _ t => some t
  | .insertCert _ t => some t
  | .getAllCerts _ t => some t
  | .getAllCertsFrom _ _ t => some t
  | .getHostCerts t => some t
  | .getHostCertsFrom _ t => some t
  | .getWeight _ t => some t
  | .getWeightFrom _ _ t => some t
  | .verifyTrust _ _ t => some t
  | .addTrust _ _ t => some t
  | .revoke _ t => some t
  | _ => none

/-- The calls that do not look at the origin of their timestamp. -/
def Unchecked : Call → Prop
  | .insertCertRaw .. | .insertCert .. | .getWeightFrom .. => True
  | _ => False

end Call

/-- Argument number `n` of the call was produced by the service `peer`, function `timestamp_sec`, on the host itself. -/
def CallParams.FromHostClock (cp : CallParams) (n : Nat) : Prop :=
  ∃ rest, cp.tetraplets[n]? = some (⟨cp.hostId, "peer".toList, "timestamp_sec".toList⟩ :: rest)

variable [Env]

/-- Success flag and error of a result record. -/
def status {α : Type} (x : M Db Empty (Res α)) : M Db Empty (Bool × Option ServiceError) := do
  let r ← x
  pure (r.success, r.error)

/-- Running a call: its success flag and error, and the database it leaves. -/
def Call.run (c : Call) (cp : CallParams) : M Db Empty (Bool × Option ServiceError) :=
  match c with
  | .setRoot p n => status (Service.setRoot cp p n)
  | .insertCertRaw c t => status (Service.insertCertRaw cp c t)
  | .insertCert c t => status (Service.insertCert cp c t)
  | .getAllCerts p t => status (Service.getAllCerts cp p t)
  | .getAllCertsFrom p i t => status (Service.getAllCertsFrom cp p i t)
  | .getHostCerts t => status (Service.getHostCerts cp t)
  | .getHostCertsFrom i t => status (Service.getHostCertsFrom cp i t)
  | .getWeight p t => status (Service.getWeight cp p t)
  | .getWeightFrom p i t => status (Service.getWeightFrom cp p i t)
  | .getTrustBytes p e i => status (Service.getTrustBytes cp p e i)
  | .issueTrust p e i b => status (Service.issueTrust cp p e i b)
  | .verifyTrust t i ts => status (Service.verifyTrust cp t i ts)
  | .addTrust t i ts => status (Service.addTrust cp t i ts)
  | .getRevocationBytes p r => status (Service.getRevocationBytes cp p r)
  | .issueRevocation b p r s => status (Service.issueRevocation cp b p r s)
  | .revoke r ts => status (Service.revoke cp r ts)
  | .exportRevocations p => status (Service.exportRevocations cp p)

/-- The call was refused: it reports failure and has not touched the database. -/
def Call.Refused (c : Call) (cp : CallParams) (db : Db) : Prop :=
  ∃ e, c.run cp db = (.ok (false, some e), db)

/-- The call returned with success. -/
def Call.Succeeds (c : Call) (cp : CallParams) (db : Db) : Prop :=
  (c.run cp db).1 = .ok (true, none)

end TG
