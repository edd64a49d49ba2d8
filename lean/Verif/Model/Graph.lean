/-
Model of /repo/trust-graph/src/{trust_relation,chain,trust_graph_storage,trust_graph}.rs.
-/
import Verif.Model.Certificate

namespace TG

/-- `TrustGraphError` (trust_graph.rs:55-83); the boxed storage error is dropped. -/
inductive TrustGraphError where
  | internalStorageError
  | noRoot
  | emptyChain
  | certificateCheckError (e : CertificateError)
  | revokeCheckError (e : RevokeError)
  | addTrustError
  | trustVerificationError (e : TrustError)
  deriving DecidableEq, Repr

/-- `MAX_WEIGHT_FACTOR` (trust_graph.rs:42). -/
def maxWeightFactor : Nat := 16

/-- `get_weight_factor` (trust_graph.rs:97-99): `saturating_sub` is subtraction of natural numbers. -/
def getWeightFactor (maxChainLen : Nat) : Nat := maxWeightFactor - maxChainLen

/-- `get_weight_from_factor` (trust_graph.rs:101-103); at most 2^16, so `2u32.pow` cannot overflow. -/
def getWeightFromFactor (wf : Nat) : Nat := 2 ^ (maxWeightFactor - wf)

variable [Env]

/-- `Auth` (trust_relation.rs:26-31). -/
structure Auth where
  trust : Trust
  issuedBy : PublicKey
  deriving DecidableEq

/-- `TrustRelation` (trust_relation.rs:34-37). -/
inductive TrustRelation where
  | auth (a : Auth)
  | revocation (r : Revocation)
  deriving DecidableEq

namespace TrustRelation

/-- `TrustRelation::issued_at` (trust_relation.rs:41-46). -/
def issuedAt : TrustRelation → Dur
  | .auth a => a.trust.issuedAt
  | .revocation r => r.revokedAt

/-- `TrustRelation::issued_by` (trust_relation.rs:49-54). -/
def issuedBy : TrustRelation → PublicKey
  | .auth a => a.issuedBy
  | .revocation r => r.revokedBy

/-- `TrustRelation::issued_for` (trust_relation.rs:56-61). -/
def issuedFor : TrustRelation → PublicKey
  | .auth a => a.trust.issuedFor
  | .revocation r => r.pk

/-- `TrustRelation::expires_at` (trust_relation.rs:63-69): revocations never expire (and report 0). -/
def expiresAt : TrustRelation → Dur
  | .auth a => a.trust.expiresAt
  | .revocation _ => Dur.ofSecs 0

/-- `TrustRelation::signature` (trust_relation.rs:71-76). -/
def signature : TrustRelation → Signature
  | .auth a => a.trust.signature
  | .revocation r => r.signature

end TrustRelation

/-- `Chain` (chain.rs:23-26).  `auths` is non-empty: `head` and the later pushes in order; `revokedBy` is a hash set, of which only
membership is used. -/
structure Chain where
  head : Auth
  tail : List Auth
  revokedBy : List PublicKey
  deriving DecidableEq

namespace Chain

/-- All auths of the chain in push order (chain.rs:24, trust_graph.rs:321). -/
def auths (c : Chain) : List Auth := c.head :: c.tail

/-- `NonEmpty::last` (trust_graph.rs:293). -/
def last (c : Chain) : Auth := c.tail.getLastD c.head

/-- `Chain::add_revocations` (chain.rs:42-46). -/
def addRevocations (c : Chain) (rs : List Revocation) : Chain :=
  { c with revokedBy := c.revokedBy ++ rs.map (·.revokedBy) }

/-- `Chain::new` (chain.rs:28-36). -/
def new (a : Auth) (rs : List Revocation) : Chain := (Chain.mk a [] []).addRevocations rs

/-- `NonEmpty::push` on `auths` (trust_graph.rs:307). -/
def push (c : Chain) (a : Auth) : Chain := { c with tail := c.tail ++ [a] }

/-- `Chain::can_be_extended_by` (chain.rs:37-40). -/
def canBeExtendedBy (c : Chain) (pk : PublicKey) : Bool :=
  !(c.revokedBy.contains pk) && !(c.auths.any (fun a => a.trust.issuedFor == pk))

end Chain

/-- The trait `Storage` (trust_graph_storage.rs).  Methods taking `&self` are stateful too, because a query
to a database can fail.  `ghostBound` is not part of the trait: it only bounds the number of loop
iterations the model executes in `bfSearchPaths` before answering `diverge`. -/
class Storage (S : Type) (σ : outParam Type) where
  getRelation : PublicKey → PublicKey → M S σ (Option TrustRelation)
  getAuthorizations : PublicKey → M S σ (List Auth)
  getRevocations : PublicKey → M S σ (List Revocation)
  insert : TrustRelation → M S σ Unit
  getRootWeightFactor : PublicKey → M S σ (Option Nat)
  setRootWeightFactor : PublicKey → Nat → M S σ Unit
  rootKeys : M S σ (List PublicKey)
  revoke : Revocation → M S σ Unit
  updateAuth : Auth → Dur → M S σ Unit
  removeExpired : Dur → M S σ Unit
  ghostBound : S → Nat

namespace TrustGraph
variable {S σ : Type} [Storage S σ]

/-- `From<StorageError> for TrustGraphError` (trust_graph.rs:85-89), applied by `?`. -/
def storage {α : Type} (x : M S σ α) : M S TrustGraphError α :=
  x.mapErr (fun _ => .internalStorageError)

/-- The inner `for auth in auths` loop of `bf_search_paths` (trust_graph.rs:299-310): the chains appended to the queue. -/
def extendAll (cur : Chain) : List Auth → M S TrustGraphError (List Chain)
  | [] => pure []
  | auth :: rest =>
    if cur.canBeExtendedBy auth.issuedBy then do
      let revs ← storage (Storage.getRevocations auth.issuedBy)
      let more ← extendAll cur rest
      pure (((cur.addRevocations revs).push auth) :: more)
    else extendAll cur rest

/-- The condition of trust_graph.rs:316-320. -/
def isTerminated (roots : List PublicKey) (c : Chain) : Bool :=
  decide (c.last.issuedBy = c.last.trust.issuedFor) && roots.contains c.last.issuedBy
    && decide (c.auths.length > 1)

/-- The `while` loop of `bf_search_paths` (trust_graph.rs:288-323).  The first argument is fuel. -/
def bfLoop (roots : List PublicKey) :
    Nat → List Chain → List (List Auth) → M S TrustGraphError (List (List Auth))
  | _, [], terminated => pure terminated
  | 0, _ :: _, _ => M.lift .diverge
  | fuel + 1, cur :: queue, terminated => do
    let auths ← storage (Storage.getAuthorizations cur.last.issuedBy)
    let new ← extendAll cur auths
    bfLoop roots fuel (queue ++ new)
      (if isTerminated roots cur then terminated ++ [cur.auths] else terminated)

/-- `TrustGraph::bf_search_paths` (trust_graph.rs:269-326). -/
def bfSearchPaths (pk : PublicKey) (roots : List PublicKey) : M S TrustGraphError (List (List Auth)) :=
  fun s0 =>
    let fuel := (Storage.ghostBound s0 + 1) ^ (Storage.ghostBound s0 + 1) + 1
    (do
      let nodeAuths ← storage (Storage.getAuthorizations pk)
      let nodeRevocations ← storage (Storage.getRevocations pk)
      bfLoop roots fuel (nodeAuths.map (fun a => Chain.new a nodeRevocations)) []
      : M S TrustGraphError (List (List Auth))) s0

/-- The mapping closure of `get_all_certs` (trust_graph.rs:369-372). -/
def toCertificate (auths : List Auth) : Certificate :=
  Certificate.newUnverified ((auths.map (·.trust)).reverse)

/-- The filter of `get_all_certs` (trust_graph.rs:373-380) with its `debug_assert!`. -/
def filterShort : List Certificate → Outcome TrustGraphError (List Certificate)
  | [] => .ok []
  | c :: cs =>
    if c.chain.length > 1 then do
      let rest ← filterShort cs
      .ok (c :: rest)
    else if Env.debug then .panic
    else filterShort cs

/-- `TrustGraph::get_all_certs` (trust_graph.rs:351-382). -/
def getAllCerts (issuedFor : PublicKey) (curTime : Dur) : M S TrustGraphError (List Certificate) := do
  storage (Storage.removeExpired curTime)
  let keys ← storage Storage.rootKeys
  let paths ← bfSearchPaths issuedFor keys
  M.lift (filterShort (paths.map toCertificate))

/-- `TrustGraph::get_all_certs_from` (trust_graph.rs:331-347). -/
def getAllCertsFrom (issuedFor issuer : PublicKey) (curTime : Dur) :
    M S TrustGraphError (List Certificate) := do
  let certs ← getAllCerts issuedFor curTime
  pure (certs.filter (fun c => c.chain.any (fun t => t.issuedFor == issuer)))

/-- `root_weight_factor + c.chain.len() as u32 - 1` (trust_graph.rs:262) in `u32`: overflow panics in debug builds and wraps
otherwise. -/
def chainFactor (rootFactor len : Nat) : Outcome TrustGraphError Nat :=
  let sum := rootFactor + len % 2 ^ 32
  if sum < 2 ^ 32 ∧ 1 ≤ sum then .ok (sum - 1)
  else if Env.debug then .panic
  else .ok ((sum + (2 ^ 32 - 1)) % 2 ^ 32)

/-- The loop of `certificates_weight_factor` (trust_graph.rs:246-263). -/
def weightFactorLoop : List Certificate → Nat → M S TrustGraphError Nat
  | [], wf => pure wf
  | c :: cs, wf =>
    match c.chain with
    | [] => M.fail (.certificateCheckError .certificateLengthError)
    | first :: _ => do
      let r ← storage (Storage.getRootWeightFactor first.issuedFor)
      let rootFactor ← M.lift (Outcome.ofOption .noRoot r)
      let f ← M.lift (chainFactor rootFactor c.chain.length)
      weightFactorLoop cs (min wf f)

/-- `TrustGraph::certificates_weight_factor` (trust_graph.rs:229-266). -/
def certificatesWeightFactor (certs : List Certificate) : M S TrustGraphError (Option Nat) :=
  match certs with
  | [] => pure none
  | _ :: _ => do
    let wf ← weightFactorLoop certs (2 ^ 32 - 1)
    pure (some wf)

/-- `TrustGraph::weight` (trust_graph.rs:185-201). -/
def weight (pk : PublicKey) (curTime : Dur) : M S TrustGraphError Nat := do
  let root ← storage (Storage.getRootWeightFactor pk)
  let maxWeight := match root with
    | some wf => getWeightFromFactor wf
    | none => 0
  let certs ← getAllCerts pk curTime
  let wf ← certificatesWeightFactor certs
  match wf with
  | some wf => pure (max maxWeight (getWeightFromFactor wf))
  | none => pure maxWeight

/-- `TrustGraph::weight_from` (trust_graph.rs:205-224). -/
def weightFrom (issuedFor issuer : PublicKey) (curTime : Dur) : M S TrustGraphError Nat := do
  let certs ← getAllCertsFrom issuedFor issuer curTime
  let wf ← certificatesWeightFactor certs
  match wf with
  | some wf => pure (max 0 (getWeightFromFactor wf))
  | none => pure 0

/-- `TrustGraph::set_root` (trust_graph.rs:114-118). -/
def setRoot (pk : PublicKey) (maxChainLen : Nat) : M S TrustGraphError Unit :=
  storage (Storage.setRootWeightFactor pk (getWeightFactor maxChainLen))

/-- `TrustGraph::get_next_weight` (trust_graph.rs:168-182). -/
def getNextWeight (issuedBy issuedFor : PublicKey) (curTime : Dur) : M S TrustGraphError Nat := do
  let w ← weight issuedBy curTime
  if issuedBy = issuedFor then pure w else pure (w / 2)

/-- `TrustGraph::add_trust` (trust_graph.rs:120-149). -/
def addTrust (trust : Trust) (issuedBy : PublicKey) (curTime : Dur) : M S TrustGraphError Nat := do
  M.lift ((trust.verify issuedBy curTime).mapErr .trustVerificationError)
  let nextWeight ← getNextWeight issuedBy trust.issuedFor curTime
  if nextWeight = 0 then pure 0
  else do
    storage (Storage.updateAuth { trust, issuedBy } curTime)
    pure nextWeight

/-- The loop of `add` (trust_graph.rs:160-163). -/
def addLoop (curTime : Dur) : PublicKey → List Trust → M S TrustGraphError Unit
  | _, [] => pure ()
  | issuedBy, t :: ts => do
    let _ ← addTrust t issuedBy curTime
    addLoop curTime t.issuedFor ts

/-- `TrustGraph::add` (trust_graph.rs:152-166). -/
def add (cert : Certificate) (curTime : Dur) : M S TrustGraphError Unit :=
  match cert.chain with
  | [] => M.fail .emptyChain
  | first :: _ => addLoop curTime first.issuedFor cert.chain

/-- `TrustGraph::revoke` (trust_graph.rs:387-391). -/
def revoke (r : Revocation) : M S TrustGraphError Unit := do
  M.lift (r.verify.mapErr .revokeCheckError)
  storage (Storage.revoke r)

/-- `TrustGraph::get_revocations` (trust_graph.rs:393-398). -/
def getRevocations (pk : PublicKey) : M S TrustGraphError (List Revocation) :=
  storage (Storage.getRevocations pk)

end TrustGraph

end TG
