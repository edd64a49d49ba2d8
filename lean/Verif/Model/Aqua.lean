/-
Model of `isFluencePeer` (/repo/aqua/labelling.aqua) with `get_host_certs_from` (/repo/aqua/trust-graph-api.aqua:200-204).
-/
import Verif.Model.Service

namespace TG
variable [Env]

namespace Aqua

/-- `fluence_root_peer_id` (labelling.aqua:24). -/
def fluenceRootPeerId : Str := "12D3KooWNbZKaPWRZ8wgjGvrxdJFz9Fq5uVwkR6ERV1f74HhPdyB".toList

/-- `label_peer_id` (labelling.aqua:25). -/
def labelPeerId : Str := "12D3KooWM45u7AQxsb4MuQJNYT3NWHHMLU7JTbBV66RTfF3KSzdR".toList

/-- The nested `if`s of the loop body (labelling.aqua:34-38). -/
def isLabelled (c : CertDto) : Bool :=
  match c.chain with
  | [t0, t1, _] => t0.issuedFor == fluenceRootPeerId && t1.issuedFor == labelPeerId
  | _ => false

/-- `get_host_certs_from` (trust-graph-api.aqua:200-204): the timestamp comes from `Peer.timestamp_sec()` on the node, which is what
the tetraplets of argument 1 then say. -/
def hostCall (host initPeer creator : Str) : CallParams where
  initPeerId := initPeer
  serviceCreatorPeerId := creator
  hostId := host
  tetraplets := [[], [⟨host, "peer".toList, "timestamp_sec".toList⟩]]

/-- `isFluencePeer` (labelling.aqua:23-44) run on node `host` at time `now`.  The streams `result` and `error` are lists; the Aqua
optional is the first element. -/
def isFluencePeer (host initPeer creator : Str) (now : UInt64) :
    M Db Empty (Option Bool × Option ServiceError) := do
  let r ← Service.getHostCertsFrom (hostCall host initPeer creator) labelPeerId now
  if r.success then
    let result := (r.payload.filter isLabelled).map (fun _ => true)
    let result := if result = [] then [false] else result
    pure (result.head?, none)
  else pure (none, r.error)

end Aqua

end TG
