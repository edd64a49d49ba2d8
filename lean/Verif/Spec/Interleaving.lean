/-
Programs on the network that run at the same time, and what it means that they might as well have run one at a time.
-/
import Verif.Model.AquaProg
import Verif.Spec.ServiceMachine

namespace TG
variable [Env]

/-- What a program learns from outside the graphs: readings of clocks and signatures. -/
inductive Input where
  | time (t : UInt64)
  | sign (r : Option Bytes)
  deriving DecidableEq

/-- The storages of the nodes. -/
abbrev Net (S : Type) := Str → S

section
variable {S σ : Type} [Storage S σ] {α : Type}

/-- The node `h` gets the storage `s`. -/
def Net.put (net : Net S) (h : Str) (s : S) : Net S := fun h' => if h' = h then s else net h'

/-- One step of a program.  Clocks and signers may answer anything.  A call of a service is executed as a whole. -/
inductive Prog.Step : Net S → Prog α → List Input → Net S → Prog α → Prop
  | time {net h k} (t : UInt64) : Step net (.time h k) [.time t] net (k t)
  | sign {net s b k} (r : Option Bytes) : Step net (.sign s b k) [.sign r] net (k r)
  | call {net h cp c k r s} (hc : c.reply cp (net h) = (.ok r, s)) : Step net (.call h cp c k) [] (net.put h s) (k r)

/-- A program executed at once, with the given inputs: its result and the storages it leaves.  `none` if it does not return, or if these are not the inputs that it takes. -/
def Prog.atOnce (net : Net S) : Prog α → List Input → Option (α × Net S)
  | .done a, [] => some (a, net)
  | .time _ k, .time t :: l => (k t).atOnce net l
  | .sign _ _ k, .sign r :: l => (k r).atOnce net l
  | .call h cp c k, l =>
    match c.reply cp (net h) with
    | (.ok r, s) => (k r).atOnce (net.put h s) l
    | _ => none
  | _, _ => none

/-- The result of a program that has returned. -/
def Prog.result : Prog α → Option α
  | .done a => some a
  | _ => none

/-- A step of a run: which program made it, what it learned, whether it returned with it. -/
structure Moment where
  thread : Nat
  inputs : List Input
  last : Bool

/-- The programs `ps` have run at the same time in some order of steps, and what remains of them is `qs`. -/
inductive Interleaved (net₀ : Net S) (ps : List (Prog α)) : List Moment → Net S → List (Prog α) → Prop
  | start : Interleaved net₀ ps [] net₀ ps
  | step {tr net qs i q inputs net' q'} : Interleaved net₀ ps tr net qs → qs[i]? = some q → Prog.Step net q inputs net' q' →
      Interleaved net₀ ps (tr ++ [⟨i, inputs, q'.result.isSome⟩]) net' (qs.set i q')

/-- What program `i` has learned in a run. -/
def inputsOf (tr : List Moment) (i : Nat) : List Input := (tr.filter (·.thread == i)).flatMap (·.inputs)

/-- The programs that have returned, in the order in which they returned. -/
def returned (tr : List Moment) : List Nat := (tr.filter (·.last)).map (·.thread)

/-- The result of program `i`, if it has returned. -/
def resultOf (qs : List (Prog α)) (i : Nat) : Option α := qs[i]?.bind Prog.result

/-- The programs `is`, executed one at a time in this order with these inputs, have these results and lead from `net` to `net'`. -/
inductive OneByOne (ps : List (Prog α)) (inputs : Nat → List Input) (results : Nat → Option α) : Net S → List Nat → Net S → Prop
  | nil {net} : OneByOne ps inputs results net [] net
  | cons {net i is p a net' net''} : ps[i]? = some p → p.atOnce net (inputs i) = some (a, net') → results i = some a →
      OneByOne ps inputs results net' is net'' → OneByOne ps inputs results net (i :: is) net''

end

/-- The node whose graph a function uses. -/
def AquaFn.site : AquaFn → Site
  | .issueTrust s .. | .issueRevocation s .. | .setRoot s .. | .importTrust s .. | .verifyTrust s .. | .getWeight s .. | .getWeightFrom s .. | .importRevocation s ..
  | .getHostCertsFrom s .. | .getAllCerts s .. | .getAllCertsFrom s .. | .getHostCerts s | .insertCert s .. => s
  | .addTrust _ s .. | .revoke _ s .. | .addRootTrust _ s .. => s

/-- The node where a function makes what it imports. -/
def AquaFn.relay : AquaFn → Site
  | .addTrust r .. | .revoke r .. | .addRootTrust r .. | .issueTrust r .. | .issueRevocation r .. => r
  | f => f.site

/-- The inputs of a function if nothing goes wrong: the clock of the relay, the signature, the clock of the node. -/
def AquaFn.asks (t₁ : UInt64) (r : Option Bytes) (t₂ : UInt64) : AquaFn → List Input
  | .setRoot .. => []
  | .addTrust .. | .revoke .. | .addRootTrust .. => [.time t₁, .sign r, .time t₂]
  | .issueTrust .. | .issueRevocation .. => [.time t₁, .sign r]
  | _ => [.time t₂]

/-- The node at the time `now`, for a particle of `init`. -/
def Site.node (s : Site) (now : UInt64) : Node where
  host := s.host
  creator := s.creator
  init := s.init
  now := now

/-- The function as in Model/AquaApi, without interruptions, about which C75–C81 speak. -/
def AquaFn.plain (t₁ : UInt64) (r : Option Bytes) (t₂ : UInt64) (relayDb : Db) (f : AquaFn) : M Db Empty AquaResult :=
  let unit : Unit → Payload := fun _ => .unit
  let weight : Nat × Str → Payload := fun a => .weight a.1 a.2
  let answer (x : M Db Empty (Res Payload)) : M Db Empty AquaResult := do let r ← x; pure (.record r)
  let report (x : M Db Empty (Option AquaError)) : M Db Empty AquaResult := do let e ← x; pure (.error e)
  match f with
  | .setRoot s o p n => answer (record unit (Aqua.setRoot (s.node 0) o p n))
  | .issueTrust s _ p e => do let x ← Aqua.issueTrust (s.node t₁) (fun _ => r) p e; pure (.trust x.1 x.2)
  | .importTrust s o0 o1 t i => report (Aqua.importTrust (s.node t₂) o0 o1 t i)
  | .addTrust rl s o0 o1 i p e => report (Aqua.addTrust (rl.node t₁) relayDb (fun _ => r) (s.node t₂) o0 o1 i p e)
  | .verifyTrust s o0 o1 t i => answer (record unit (Aqua.verifyTrust (s.node t₂) o0 o1 t i))
  | .getWeight s o0 p => answer (record weight (Aqua.getWeight (s.node t₂) o0 p))
  | .getWeightFrom s o0 o1 p i => answer (record weight (Aqua.getWeightFrom (s.node t₂) o0 o1 p i))
  | .issueRevocation s b p => do let x ← Aqua.issueRevocation (s.node t₁) (fun _ => r) b p; pure (.revocation x.1 x.2)
  | .importRevocation s o0 v => report (Aqua.importRevocation (s.node t₂) o0 v)
  | .revoke rl s o0 b p => report (Aqua.revoke (rl.node t₁) relayDb (fun _ => r) (s.node t₂) o0 b p)
  | .getHostCertsFrom s o0 i => answer (record .certs (Aqua.getHostCertsFrom (s.node t₂) o0 i))
  | .getAllCerts s o0 p => answer (record .certs (Aqua.getAllCerts (s.node t₂) o0 p))
  | .getAllCertsFrom s o0 o1 p i => answer (record .certs (Aqua.getAllCertsFrom (s.node t₂) o0 o1 p i))
  | .getHostCerts s => answer (record .certs (Aqua.getHostCerts (s.node t₂)))
  | .insertCert s o0 c => answer (record unit (Aqua.insertCert (s.node t₂) o0 c))
  | .addRootTrust rl s o0 o1 o p n e => report (Aqua.addRootTrust (rl.node t₁) relayDb (fun _ => r) (s.node t₂) o0 o1 o p n e)

end TG
