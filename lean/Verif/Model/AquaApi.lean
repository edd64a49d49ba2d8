/-
Model of the published Aqua functions (/repo/aqua/trust-graph-api.aqua, append_error of /repo/aqua/misc.aqua).

An Aqua function runs on a node (`Node`): its service calls act on the database of that node.  `Peer.timestamp_sec()` returns the clock of the node
on which it runs, and the runtime labels the value accordingly (tetraplets).  The other arguments may come from anywhere: their tetraplets are the
parameter `origins`.

Simplifications: error texts are error values; the Aqua runtime (routing, joins, particle expiry) is not modelled: every step that is reached is
executed once.  The functions that issue something call the service of the relay (`HOST_PEER_ID`), whose database `relayDb` these calls do not change
(`C79_issue_reads_only`), and then import it on `node`, whose database is the state: it may have changed in between.
-/
import Verif.Model.Aqua

namespace TG

/-- A node with the service, at the moment it runs a function: its peer id, its clock, the creator of the service and the initiator of the
particle (`on HOST_PEER_ID`, `on node` in trust-graph-api.aqua:32, 81, 99, 141, 192). -/
structure Node where
  host : Str
  creator : Str
  init : Str
  now : UInt64

/-- `Sig.sign` (trust-graph-api.aqua:40, 150): the signature, or nothing if the service reports an error. -/
abbrev SigService := Bytes → Option Bytes

/-- The error strings of the Aqua functions (trust-graph-api.aqua:48-52, 65, 105, 158-162, 175). -/
inductive AquaError where
  | service (e : ServiceError)
  | sig
  deriving DecidableEq

namespace Node

/-- The tetraplets of a value of `Peer.timestamp_sec()` (trust-graph-api.aqua:33, 62, 112 and so on) on this node. -/
def clock (n : Node) : List Tetraplet := [⟨n.host, "peer".toList, "timestamp_sec".toList⟩]

/-- The parameters (service_api.rs:20, 91 and so on) of a call of the service on this node whose arguments have these origins. -/
def call (n : Node) (tetraplets : List (List Tetraplet)) : CallParams where
  initPeerId := n.init
  serviceCreatorPeerId := n.creator
  hostId := n.host
  tetraplets := tetraplets

end Node

variable [Env]

namespace Aqua

/-- `append_error` (misc.aqua:15-17) on an empty stream, read as an optional. -/
def appendError (error : Option AquaError) : Option AquaError := error

/-- The error reported for a result record: `if !result.success: error <<- result.error` (trust-graph-api.aqua:64-65, 174-175). -/
def errorOf {α : Type} (r : Res α) : Option AquaError :=
  if r.success then none else r.error.map .service

/-- `set_root` (trust-graph-api.aqua:21-23). -/
def setRoot (n : Node) (origins : List (List Tetraplet)) (peerId : Str) (maxChainLen : UInt32) : M Db Empty (Res Unit) :=
  Service.setRoot (n.call origins) peerId maxChainLen

/-- `issue_trust` (trust-graph-api.aqua:30-54) on the relay. -/
def issueTrust (relay : Node) (sig : SigService) (issuedFor : Str) (expiresAt : UInt64) :
    M Db Empty (Option TrustDto × Option AquaError) := do
  let issuedAt := relay.now
  let bytes ← Service.getTrustBytes (relay.call []) issuedFor expiresAt issuedAt
  if bytes.success then
    match sig bytes.payload with
    | some signature => do
      let r ← Service.issueTrust (relay.call []) issuedFor expiresAt issuedAt signature
      if r.success then pure (some r.payload, none) else pure (none, r.error.map .service)
    | none => pure (none, some .sig)
  else pure (none, bytes.error.map .service)

/-- `import_trust` (trust-graph-api.aqua:60-67). -/
def importTrust (n : Node) (o0 o1 : List Tetraplet) (trust : TrustDto) (issuer : Str) : M Db Empty (Option AquaError) := do
  let r ← Service.addTrust (n.call [o0, o1, n.clock]) trust issuer n.now
  pure (errorOf r)

/-- `add_trust` (trust-graph-api.aqua:74-85).  `trust!` waits for a value; there is one whenever there is no error. -/
def addTrust (relay : Node) (relayDb : Db) (sig : SigService) (n : Node) (o0 o1 : List Tetraplet) (issuer issuedFor : Str)
    (expiresAt : UInt64) : M Db Empty (Option AquaError) := do
  let (trust, issueError) ← M.lift (issueTrust relay sig issuedFor expiresAt relayDb).1
  match issueError, trust with
  | some e, _ => pure (some e)
  | none, some t => do
    let e ← importTrust n o0 o1 t issuer
    pure (appendError e)
  | none, none => M.lift .diverge

/-- `add_root_trust` (trust-graph-api.aqua:92-107). -/
def addRootTrust (relay : Node) (relayDb : Db) (sig : SigService) (n : Node) (o0 o1 : List Tetraplet) (origins : List (List Tetraplet))
    (peerId : Str) (maxChainLen : UInt32) (expiresAt : UInt64) : M Db Empty (Option AquaError) := do
  let (trust, issueError) ← M.lift (issueTrust relay sig peerId expiresAt relayDb).1
  match issueError, trust with
  | some e, _ => pure (some e)
  | none, some t => do
    let r ← setRoot n origins peerId maxChainLen
    if r.success then do
      let e ← importTrust n o0 o1 t peerId
      pure (appendError e)
    else pure (r.error.map .service)
  | none, none => M.lift .diverge

/-- `verify_trust` (trust-graph-api.aqua:111-115). -/
def verifyTrust (n : Node) (o0 o1 : List Tetraplet) (trust : TrustDto) (issuer : Str) : M Db Empty (Res Unit) :=
  Service.verifyTrust (n.call [o0, o1, n.clock]) trust issuer n.now

/-- `get_weight` (trust-graph-api.aqua:120-124). -/
def getWeight (n : Node) (o0 : List Tetraplet) (peerId : Str) : M Db Empty (Res (Nat × Str)) :=
  Service.getWeight (n.call [o0, n.clock]) peerId n.now

/-- `get_weight_from` (trust-graph-api.aqua:128-132). -/
def getWeightFrom (n : Node) (o0 o1 : List Tetraplet) (peerId issuer : Str) : M Db Empty (Res (Nat × Str)) :=
  Service.getWeightFrom (n.call [o0, o1, n.clock]) peerId issuer n.now

/-- `issue_revocation` (trust-graph-api.aqua:139-164) on the relay. -/
def issueRevocation (relay : Node) (sig : SigService) (revokedBy revoked : Str) :
    M Db Empty (Option RevocationDto × Option AquaError) := do
  let issuedAt := relay.now
  let bytes ← Service.getRevocationBytes (relay.call []) revoked issuedAt
  if bytes.success then
    match sig bytes.payload with
    | some signature => do
      let r ← Service.issueRevocation (relay.call []) revokedBy revoked issuedAt signature
      if r.success then pure (some r.payload, none) else pure (none, r.error.map .service)
    | none => pure (none, some .sig)
  else pure (none, bytes.error.map .service)

/-- `import_revocation` (trust-graph-api.aqua:170-177). -/
def importRevocation (n : Node) (o0 : List Tetraplet) (revocation : RevocationDto) : M Db Empty (Option AquaError) := do
  let r ← Service.revoke (n.call [o0, n.clock]) revocation n.now
  pure (errorOf r)

/-- `revoke` (trust-graph-api.aqua:185-196).  `issue_error!` waits for a value; there is one whenever there is no revocation. -/
def revoke (relay : Node) (relayDb : Db) (sig : SigService) (n : Node) (o0 : List Tetraplet) (revokedBy revoked : Str) :
    M Db Empty (Option AquaError) := do
  let (revocation, issueError) ← M.lift (issueRevocation relay sig revokedBy revoked relayDb).1
  match revocation, issueError with
  | none, some e => pure (some e)
  | none, none => M.lift .diverge
  | some r, _ => do
    let e ← importRevocation n o0 r
    pure (appendError e)

/-- `get_host_certs_from` (trust-graph-api.aqua:200-204). -/
def getHostCertsFrom (n : Node) (o0 : List Tetraplet) (issuer : Str) : M Db Empty (Res (List CertDto)) :=
  Service.getHostCertsFrom (n.call [o0, n.clock]) issuer n.now

/-- `get_all_certs` (trust-graph-api.aqua:208-212). -/
def getAllCerts (n : Node) (o0 : List Tetraplet) (issuedFor : Str) : M Db Empty (Res (List CertDto)) :=
  Service.getAllCerts (n.call [o0, n.clock]) issuedFor n.now

/-- `get_all_certs_from` (trust-graph-api.aqua:216-220). -/
def getAllCertsFrom (n : Node) (o0 o1 : List Tetraplet) (issuedFor issuer : Str) : M Db Empty (Res (List CertDto)) :=
  Service.getAllCertsFrom (n.call [o0, o1, n.clock]) issuedFor issuer n.now

/-- `get_host_certs` (trust-graph-api.aqua:224-228). -/
def getHostCerts (n : Node) : M Db Empty (Res (List CertDto)) :=
  Service.getHostCerts (n.call [n.clock]) n.now

/-- `insert_cert` (trust-graph-api.aqua:232-236). -/
def insertCert (n : Node) (o0 : List Tetraplet) (certificate : CertDto) : M Db Empty (Res Unit) :=
  Service.insertCert (n.call [o0, n.clock]) certificate n.now

end Aqua

end TG
