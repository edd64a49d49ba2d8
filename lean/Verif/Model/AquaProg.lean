/-
The published Aqua functions (/repo/aqua/trust-graph-api.aqua) as programs that can be interrupted: the same functions as in Model/AquaApi, cut at every reading of a
clock, every request for a signature and every call of a service.  Between two such steps other programs may run.  Simplifications as in Model/AquaApi.
-/
import Verif.Model.AquaApi
import Verif.Model.Instance

namespace TG
variable [Env]

/-- A node with the service, for a particle of `init` (see `Node`, trust-graph-api.aqua:32, 81, 99, 141, 192). -/
structure Site where
  host : Str
  creator : Str
  init : Str

/-- The node at a moment (trust-graph-api.aqua:33, 62, 112 and so on). -/
def Site.at (s : Site) (now : UInt64) : Node := ⟨s.host, s.creator, s.init, now⟩

/-- A program that uses nodes: what it does next, and how it goes on (trust-graph-api.aqua:21-236). -/
inductive Prog (α : Type) where
  /-- It returns. -/
  | done (a : α)
  /-- It waits for a value that never comes. -/
  | wait
  /-- `Peer.timestamp_sec()` on a node. -/
  | time (host : Str) (k : UInt64 → Prog α)
  /-- `Sig.sign` of the signer: a signature or an error. -/
  | sign (signer : Str) (bytes : Bytes) (k : Option Bytes → Prog α)
  /-- A call of the service on a node. -/
  | call (host : Str) (cp : CallParams) (c : Call) (k : Res Payload → Prog α)

/-- One program after the other (a function call in Aqua, for example trust-graph-api.aqua:75). -/
def Prog.bind {α β : Type} : Prog α → (α → Prog β) → Prog β
  | .done a, f => f a
  | .wait, _ => .wait
  | .time h k, f => .time h fun t => (k t).bind f
  | .sign s b k, f => .sign s b fun r => (k r).bind f
  | .call h cp c k, f => .call h cp c fun r => (k r).bind f

/-- What the functions return (trust-graph-api.aqua:21-236). -/
inductive AquaResult where
  | error (e : Option AquaError)
  | record (r : Res Payload)
  | trust (t : Option TrustDto) (e : Option AquaError)
  | revocation (r : Option RevocationDto) (e : Option AquaError)
  deriving DecidableEq

/-- The fields of the records (results.rs) that the functions read. -/
def Payload.asBytes : Payload → Bytes
  | .bytes b => b
  | _ => []

/-- The trust of `IssueTrustResult` (results.rs). -/
def Payload.asTrust : Payload → TrustDto
  | .trust t => t
  | _ => TrustDto.default

/-- The revocation of `IssueRevocationResult` (results.rs). -/
def Payload.asRevocation : Payload → RevocationDto
  | .revocation r => r
  | _ => RevocationDto.default

namespace AquaProg

/-- The error reported for a result record (trust-graph-api.aqua:64-65, 174-175). -/
def errorOf (r : Res Payload) : Option AquaError := if r.success then none else r.error.map .service

/-- `set_root` (trust-graph-api.aqua:21-23). -/
def setRoot (s : Site) (origins : List (List Tetraplet)) (peerId : Str) (maxChainLen : UInt32) : Prog (Res Payload) :=
  .call s.host ((s.at 0).call origins) (.setRoot peerId maxChainLen) .done

/-- `issue_trust` (trust-graph-api.aqua:30-54). -/
def issueTrust (relay : Site) (issuer issuedFor : Str) (expiresAt : UInt64) : Prog (Option TrustDto × Option AquaError) :=
  .time relay.host fun issuedAt =>
  .call relay.host ((relay.at issuedAt).call []) (.getTrustBytes issuedFor expiresAt issuedAt) fun bytes =>
    if bytes.success then
      .sign issuer bytes.payload.asBytes fun
        | some signature =>
          .call relay.host ((relay.at issuedAt).call []) (.issueTrust issuedFor expiresAt issuedAt signature) fun r =>
            if r.success then .done (some r.payload.asTrust, none) else .done (none, r.error.map .service)
        | none => .done (none, some .sig)
    else .done (none, bytes.error.map .service)

/-- `import_trust` (trust-graph-api.aqua:60-67). -/
def importTrust (s : Site) (o0 o1 : List Tetraplet) (trust : TrustDto) (issuer : Str) : Prog (Option AquaError) :=
  .time s.host fun now => .call s.host ((s.at now).call [o0, o1, (s.at now).clock]) (.addTrust trust issuer now) fun r => .done (errorOf r)

/-- `add_trust` (trust-graph-api.aqua:74-85). -/
def addTrust (relay s : Site) (o0 o1 : List Tetraplet) (issuer issuedFor : Str) (expiresAt : UInt64) : Prog (Option AquaError) :=
  (issueTrust relay issuer issuedFor expiresAt).bind fun
    | (_, some e) => .done (some e)
    | (some t, none) => importTrust s o0 o1 t issuer
    | (none, none) => .wait

/-- `add_root_trust` (trust-graph-api.aqua:92-107). -/
def addRootTrust (relay s : Site) (o0 o1 : List Tetraplet) (origins : List (List Tetraplet)) (peerId : Str) (maxChainLen : UInt32) (expiresAt : UInt64) :
    Prog (Option AquaError) :=
  (issueTrust relay peerId peerId expiresAt).bind fun
    | (_, some e) => .done (some e)
    | (some t, none) => (setRoot s origins peerId maxChainLen).bind fun r =>
      if r.success then importTrust s o0 o1 t peerId else .done (r.error.map .service)
    | (none, none) => .wait

/-- A function that reads the clock and calls the service once. -/
def timed (s : Site) (origins : List (List Tetraplet)) (c : UInt64 → Call) : Prog (Res Payload) :=
  .time s.host fun now => .call s.host ((s.at now).call (origins ++ [(s.at now).clock])) (c now) .done

/-- `verify_trust` (trust-graph-api.aqua:111-115). -/
def verifyTrust (s : Site) (o0 o1 : List Tetraplet) (trust : TrustDto) (issuer : Str) : Prog (Res Payload) := timed s [o0, o1] (.verifyTrust trust issuer)

/-- `get_weight` (trust-graph-api.aqua:120-124). -/
def getWeight (s : Site) (o0 : List Tetraplet) (peerId : Str) : Prog (Res Payload) := timed s [o0] (.getWeight peerId)

/-- `get_weight_from` (trust-graph-api.aqua:128-132). -/
def getWeightFrom (s : Site) (o0 o1 : List Tetraplet) (peerId issuer : Str) : Prog (Res Payload) := timed s [o0, o1] (.getWeightFrom peerId issuer)

/-- `issue_revocation` (trust-graph-api.aqua:139-164). -/
def issueRevocation (relay : Site) (revokedBy revoked : Str) : Prog (Option RevocationDto × Option AquaError) :=
  .time relay.host fun issuedAt =>
  .call relay.host ((relay.at issuedAt).call []) (.getRevocationBytes revoked issuedAt) fun bytes =>
    if bytes.success then
      .sign revokedBy bytes.payload.asBytes fun
        | some signature =>
          .call relay.host ((relay.at issuedAt).call []) (.issueRevocation revokedBy revoked issuedAt signature) fun r =>
            if r.success then .done (some r.payload.asRevocation, none) else .done (none, r.error.map .service)
        | none => .done (none, some .sig)
    else .done (none, bytes.error.map .service)

/-- `import_revocation` (trust-graph-api.aqua:170-177). -/
def importRevocation (s : Site) (o0 : List Tetraplet) (revocation : RevocationDto) : Prog (Option AquaError) :=
  .time s.host fun now => .call s.host ((s.at now).call [o0, (s.at now).clock]) (.revoke revocation now) fun r => .done (errorOf r)

/-- `revoke` (trust-graph-api.aqua:185-196). -/
def revoke (relay s : Site) (o0 : List Tetraplet) (revokedBy revoked : Str) : Prog (Option AquaError) :=
  (issueRevocation relay revokedBy revoked).bind fun
    | (none, some e) => .done (some e)
    | (none, none) => .wait
    | (some r, _) => importRevocation s o0 r

/-- `get_host_certs_from` (trust-graph-api.aqua:200-204). -/
def getHostCertsFrom (s : Site) (o0 : List Tetraplet) (issuer : Str) : Prog (Res Payload) := timed s [o0] (.getHostCertsFrom issuer)

/-- `get_all_certs` (trust-graph-api.aqua:208-212). -/
def getAllCerts (s : Site) (o0 : List Tetraplet) (issuedFor : Str) : Prog (Res Payload) := timed s [o0] (.getAllCerts issuedFor)

/-- `get_all_certs_from` (trust-graph-api.aqua:216-220). -/
def getAllCertsFrom (s : Site) (o0 o1 : List Tetraplet) (issuedFor issuer : Str) : Prog (Res Payload) := timed s [o0, o1] (.getAllCertsFrom issuedFor issuer)

/-- `get_host_certs` (trust-graph-api.aqua:224-228). -/
def getHostCerts (s : Site) : Prog (Res Payload) := timed s [] .getHostCerts

/-- `insert_cert` (trust-graph-api.aqua:232-236). -/
def insertCert (s : Site) (o0 : List Tetraplet) (certificate : CertDto) : Prog (Res Payload) := timed s [o0] (.insertCert certificate)

end AquaProg

/-- The exported functions of trust-graph-api.aqua (:3-8) with their arguments. -/
inductive AquaFn where
  | setRoot (s : Site) (origins : List (List Tetraplet)) (peerId : Str) (maxChainLen : UInt32)
  | issueTrust (relay : Site) (issuer issuedFor : Str) (expiresAt : UInt64)
  | importTrust (s : Site) (o0 o1 : List Tetraplet) (trust : TrustDto) (issuer : Str)
  | addTrust (relay s : Site) (o0 o1 : List Tetraplet) (issuer issuedFor : Str) (expiresAt : UInt64)
  | verifyTrust (s : Site) (o0 o1 : List Tetraplet) (trust : TrustDto) (issuer : Str)
  | getWeight (s : Site) (o0 : List Tetraplet) (peerId : Str)
  | getWeightFrom (s : Site) (o0 o1 : List Tetraplet) (peerId issuer : Str)
  | issueRevocation (relay : Site) (revokedBy revoked : Str)
  | importRevocation (s : Site) (o0 : List Tetraplet) (revocation : RevocationDto)
  | revoke (relay s : Site) (o0 : List Tetraplet) (revokedBy revoked : Str)
  | getHostCertsFrom (s : Site) (o0 : List Tetraplet) (issuer : Str)
  | getAllCerts (s : Site) (o0 : List Tetraplet) (issuedFor : Str)
  | getAllCertsFrom (s : Site) (o0 o1 : List Tetraplet) (issuedFor issuer : Str)
  | getHostCerts (s : Site)
  | insertCert (s : Site) (o0 : List Tetraplet) (certificate : CertDto)
  | addRootTrust (relay s : Site) (o0 o1 : List Tetraplet) (origins : List (List Tetraplet)) (peerId : Str) (maxChainLen : UInt32) (expiresAt : UInt64)

/-- The program of a function (trust-graph-api.aqua:21-236). -/
def AquaFn.prog : AquaFn → Prog AquaResult
  | .setRoot s o p n => (AquaProg.setRoot s o p n).bind fun r => .done (.record r)
  | .issueTrust r i p e => (AquaProg.issueTrust r i p e).bind fun x => .done (.trust x.1 x.2)
  | .importTrust s o0 o1 t i => (AquaProg.importTrust s o0 o1 t i).bind fun e => .done (.error e)
  | .addTrust r s o0 o1 i p e => (AquaProg.addTrust r s o0 o1 i p e).bind fun e => .done (.error e)
  | .verifyTrust s o0 o1 t i => (AquaProg.verifyTrust s o0 o1 t i).bind fun r => .done (.record r)
  | .getWeight s o0 p => (AquaProg.getWeight s o0 p).bind fun r => .done (.record r)
  | .getWeightFrom s o0 o1 p i => (AquaProg.getWeightFrom s o0 o1 p i).bind fun r => .done (.record r)
  | .issueRevocation r b p => (AquaProg.issueRevocation r b p).bind fun x => .done (.revocation x.1 x.2)
  | .importRevocation s o0 r => (AquaProg.importRevocation s o0 r).bind fun e => .done (.error e)
  | .revoke r s o0 b p => (AquaProg.revoke r s o0 b p).bind fun e => .done (.error e)
  | .getHostCertsFrom s o0 i => (AquaProg.getHostCertsFrom s o0 i).bind fun r => .done (.record r)
  | .getAllCerts s o0 p => (AquaProg.getAllCerts s o0 p).bind fun r => .done (.record r)
  | .getAllCertsFrom s o0 o1 p i => (AquaProg.getAllCertsFrom s o0 o1 p i).bind fun r => .done (.record r)
  | .getHostCerts s => (AquaProg.getHostCerts s).bind fun r => .done (.record r)
  | .insertCert s o0 c => (AquaProg.insertCert s o0 c).bind fun r => .done (.record r)
  | .addRootTrust r s o0 o1 o p n e => (AquaProg.addRootTrust r s o0 o1 o p n e).bind fun e => .done (.error e)

end TG
