/-
Model of /repo/builtin-package/on_start.air: the script with which a node starts the service.

The script gets `certs`, the list in on_start.json (distro/init_certs.json), and reports through ("op" "return").
-/
import Verif.Model.AquaApi

namespace TG

/-- What the script passes to ("op" "return") (on_start.air:9, 25, 31). -/
inductive Returned where
  | error (e : Option ServiceError)
  | true
  deriving DecidableEq

variable [Env]

namespace OnStart

/-- `(xor (match res.success! true (null)) (call relay ("op" "return") [res.error!]))` (on_start.air:5-10, 21-26): the script then goes on. -/
def report (r : Res Unit) : List Returned := if r.success then [] else [.error r.error]

/-- The fold (on_start.air:13-30).  With each certificate comes the time that ("peer" "timestamp_sec") returns in its round.  The values
returned so far are the result. -/
def insertAll (n : Node) : List (CertDto × UInt64) → M Db Empty (List Returned)
  | [] => pure []
  | (c, now) :: rest => do
    let r ← Service.insertCert (({ n with now := now } : Node).call [[], ({ n with now := now } : Node).clock]) c now
    let out ← insertAll n rest
    pure (report r ++ out)

/-- `max_chain_len` (on_start.air:4). -/
def maxChainLen : UInt32 := 5

/-- on_start.air:1-33. -/
def run (n : Node) (certs : List (CertDto × UInt64)) : M Db Empty (List Returned) := do
  let r ← Service.setRoot (n.call [[], []]) Aqua.fluenceRootPeerId maxChainLen
  let out ← insertAll n certs
  pure (report r ++ out ++ [.true])

end OnStart

end TG
