/-
Model of /repo/admin/index.ts: the program that makes the certificates in on_start.json.

Simplifications: JavaScript numbers are `UInt64` (times are far below 2^53); the signature of `KeyPair` of @fluencelabs/fluence is that of the Ed25519 key
pair.  Writing the JSON file and reading it are in Model/Distro.lean.
-/
import Verif.Model.OnStart

namespace TG
variable [Env]

namespace Admin

/-- `issue_trust_helper` (admin/index.ts:36-42): neither `success` is looked at. -/
def issueTrustHelper (node : Node) (issuer : KeyPair) (issuedFor : Str) (expiresAt issuedAt : UInt64) : M Db Empty TrustDto := do
  let metadata ← Service.getTrustBytes (node.call []) issuedFor expiresAt issuedAt
  match issuer.sign metadata.payload with
  | .ok signed => do
    let trust ← Service.issueTrust (node.call []) issuedFor expiresAt issuedAt signed.raw
    pure trust.payload
  | _ => M.lift .panic

/-- The loop over the nodes (admin/index.ts:75-81). -/
def nodeCerts (node : Node) (issuer : KeyPair) (rootTrust issuerTrust : TrustDto) (expiresAt curTime : UInt64) :
    List Str → M Db Empty (List CertDto)
  | [] => pure []
  | peer :: peers => do
    let nodeTrust ← issueTrustHelper node issuer peer expiresAt curTime
    let rest ← nodeCerts node issuer rootTrust issuerTrust expiresAt curTime peers
    pure (⟨[rootTrust, issuerTrust, nodeTrust]⟩ :: rest)

/-- `main` from `cur_time` on (admin/index.ts:62-83), up to writing the file. -/
def certificates (node : Node) (root issuer example' : KeyPair) (peers : List Str) : M Db Empty (List CertDto) := do
  let curTime := node.now
  let expiresAt := curTime + 60 * 60 * 24 * 365 * 2
  let rootTrust ← issueTrustHelper node root root.pub.toPeerId.toBase58 expiresAt curTime
  let issuerTrust ← issueTrustHelper node root issuer.pub.toPeerId.toBase58 expiresAt curTime
  let exampleTrust ← issueTrustHelper node root example'.pub.toPeerId.toBase58 expiresAt curTime
  let rest ← nodeCerts node issuer rootTrust issuerTrust expiresAt curTime peers
  pure (⟨[rootTrust, exampleTrust]⟩ :: rest)

end Admin

end TG
