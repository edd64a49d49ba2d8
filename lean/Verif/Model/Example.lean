/-
Model of /repo/example/aqua/computation.aqua and of the program /repo/example/index.ts.
-/
import Verif.Model.AquaApi

namespace TG
variable [Env]

namespace Example

/-- The errors of `trusted_computation` (computation.aqua:29, 31). -/
inductive Error where
  | service (e : ServiceError)
  | noCerts
  deriving DecidableEq

/-- `trusted_computation` (computation.aqua:15-33).  The state is the database of the relay.  `compute` is the call on `node` (`identity(5)` in the example). -/
def trustedComputation {α : Type} (relay : Node) (o0 o1 : List Tetraplet) (node : Str) (compute : α) :
    M Db Empty (Option α × Option Error) := do
  let r ← Aqua.getAllCertsFrom relay o0 o1 node relay.init
  if r.success then
    let len := r.payload.length
    if len ≠ 0 then pure (some compute, none) else pure (none, some .noCerts)
  else pure (none, r.error.map .service)

/-- What the program prints (example/index.ts:46-75).  The texts are constructors; empty lines and announcements are left out. -/
inductive Line (α : Type) where
  | error (e : AquaError)
  | added (node : Str)
  | revoked (node : Str)
  | successful (node : Str) (result : α)
  | failed (node : Str) (e : Option Error)
  deriving DecidableEq

/-- `revoke_all` (index.ts:42-49) for one node; the two times are the readings of the clock of the relay. -/
def revokeQuietly {α : Type} (relay : UInt64 → Node) (sig : SigService) (o : List Tetraplet) (client node : Str) (t t' : UInt64) :
    M Db Empty (List (Line α)) := do
  let e ← (fun db => Aqua.revoke (relay t) db sig (relay t') o client node db)
  match e with
  | some e => pure [.error e]
  | none => pure []

/-- `add_new_trust_checked` (index.ts:51-58). -/
def addNewTrustChecked {α : Type} (relay : UInt64 → Node) (sig : SigService) (o : List Tetraplet) (client node : Str) (expiresAt t t' : UInt64) :
    M Db Empty (List (Line α)) := do
  let e ← (fun db => Aqua.addTrust (relay t) db sig (relay t') o o client node expiresAt db)
  match e with
  | some e => pure [.error e]
  | none => pure [.added node]

/-- `revoke_checked` (index.ts:60-67). -/
def revokeChecked {α : Type} (relay : UInt64 → Node) (sig : SigService) (o : List Tetraplet) (client node : Str) (t t' : UInt64) :
    M Db Empty (List (Line α)) := do
  let e ← (fun db => Aqua.revoke (relay t) db sig (relay t') o client node db)
  match e with
  | some e => pure [.error e]
  | none => pure [.revoked node]

/-- `exec_trusted_computation` (index.ts:69-77). -/
def execTrustedComputation {α : Type} (relay : UInt64 → Node) (o : List Tetraplet) (compute : α) (node : Str) (t : UInt64) :
    M Db Empty (List (Line α)) := do
  let (result, error) ← trustedComputation (relay t) o o node compute
  match result with
  | some r => pure [.successful node r]
  | none => pure [.failed node error]

/-- `main` (index.ts:79-134) with the nodes A (the relay), B and C.  `clock i` is reading number `i` of the clock of the relay, in the order in which they are
made; the program waits a second between the readings 6 and 7, and 16 and 17.  The state is the database of the relay, on which everything is done.  Making
the client, the connection and the checks of JavaScript are left out. -/
def main {α : Type} (relay : UInt64 → Node) (sig : SigService) (o : List Tetraplet) (client a b c : Str) (compute : α) (clock : Nat → UInt64) :
    M Db Empty (List (Line α)) := do
  let farFuture := clock 0 + 9999999
  let l1 ← revokeQuietly relay sig o client a (clock 1) (clock 2)
  let l2 ← revokeQuietly relay sig o client b (clock 3) (clock 4)
  let l3 ← revokeQuietly relay sig o client c (clock 5) (clock 6)
  let l4 ← execTrustedComputation relay o compute a (clock 7)
  let l5 ← execTrustedComputation relay o compute b (clock 8)
  let l6 ← execTrustedComputation relay o compute c (clock 9)
  let l7 ← addNewTrustChecked relay sig o client b farFuture (clock 10) (clock 11)
  let l8 ← addNewTrustChecked relay sig o client c farFuture (clock 12) (clock 13)
  let l9 ← execTrustedComputation relay o compute a (clock 14)
  let l10 ← execTrustedComputation relay o compute b (clock 15)
  let l11 ← execTrustedComputation relay o compute c (clock 16)
  let l12 ← revokeChecked relay sig o client b (clock 17) (clock 18)
  let l13 ← execTrustedComputation relay o compute a (clock 19)
  let l14 ← execTrustedComputation relay o compute b (clock 20)
  let l15 ← execTrustedComputation relay o compute c (clock 21)
  pure (l1 ++ l2 ++ l3 ++ l4 ++ l5 ++ l6 ++ l7 ++ l8 ++ l9 ++ l10 ++ l11 ++ l12 ++ l13 ++ l14 ++ l15)

end Example

end TG
