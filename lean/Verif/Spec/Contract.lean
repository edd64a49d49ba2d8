/-
What the library asks of a storage.  The trait `Storage` (trust_graph_storage.rs) is public and anybody may implement it; this is what an implementation must do
for the library to work.
-/
import Verif.Spec.Machine
import Verif.Spec.SqlRun

namespace TG
variable [Env]

/-- How to look at the states of a storage. -/
structure Look (S : Type) where
  /-- The states the storage can be in. -/
  Ok : S → Prop
  /-- What is stored, as a state of the reference machine. -/
  world : S → Spec.World
  /-- The order in which the storage lists the trusts for a key, the revocations of a key and the roots. -/
  auths : S → PublicKey → List Auth
  revs : S → PublicKey → List Revocation
  roots : S → List PublicKey

namespace Look
variable {S σ : Type} (look : Look S)

/-- The same things are stored, and listed in the same order. -/
structure Same (s s' : S) : Prop where
  ok : look.Ok s'
  world : look.world s' = look.world s
  auths : look.auths s' = look.auths s
  revs : look.revs s' = look.revs s
  roots : look.roots s' = look.roots s

/-- In state `s` the method `x` answers `a` or fails.  It changes nothing. -/
def Reads (faulty : Prop) (s : S) {α : Type} (x : M S σ α) (a : α) : Prop :=
  ∃ s', look.Same s s' ∧ (x s = (.ok a, s') ∨ faulty ∧ ∃ e, x s = (.err e, s'))

/-- In state `s` the method `x` leads to a state that represents `w`, or fails and leads to one that represents the same as `s`. -/
def Writes (faulty : Prop) (s : S) (x : M S σ Unit) (w : Spec.World) : Prop :=
  ∃ s', look.Ok s' ∧ ((x s = (.ok (), s') ∧ look.world s' = w) ∨ faulty ∧ (∃ e, x s = (.err e, s')) ∧ look.world s' = look.world s)

end Look

/-- The part of the rules about reading: what is listed is what is stored, in any order but without repetition, and collecting expired trusts does just that.  Only if
`faulty`, the methods may fail, and then change nothing.  A maximum chain length `n` is kept as the weight factor `16 - n`. -/
structure ReadContract {S σ : Type} [Storage S σ] (look : Look S) (faulty : Prop) : Prop where
  auths_nodup : ∀ s, look.Ok s → ∀ k, (look.auths s k).Nodup
  mem_auths : ∀ s, look.Ok s → ∀ k a, a ∈ look.auths s k ↔ (look.world s).relation a.issuedBy k = some (.auth a)
  revs_nodup : ∀ s, look.Ok s → ∀ k, (look.revs s k).Nodup
  mem_revs : ∀ s, look.Ok s → ∀ k r, r ∈ look.revs s k ↔ (look.world s).relation r.revokedBy k = some (.revocation r)
  mem_roots : ∀ s, look.Ok s → ∀ k, k ∈ look.roots s ↔ ((look.world s).roots k).isSome
  getAuthorizations : ∀ s, look.Ok s → ∀ k, look.Reads faulty s (Storage.getAuthorizations k) (look.auths s k)
  getRevocations : ∀ s, look.Ok s → ∀ k, look.Reads faulty s (Storage.getRevocations k) (look.revs s k)
  rootKeys : ∀ s, look.Ok s → look.Reads faulty s Storage.rootKeys (look.roots s)
  getRootWeightFactor : ∀ s, look.Ok s → ∀ k,
    look.Reads faulty s (Storage.getRootWeightFactor k) (((look.world s).roots k).map (fun n => 16 - n))
  removeExpired : ∀ s, look.Ok s → ∀ now, look.Writes faulty s (Storage.removeExpired now) ((look.world s).collect now)
  /-- Not about the trait: the number by which the model bounds the loop of the search is at least the number of relations. -/
  ghostBound : ∀ s, look.Ok s → ∃ l : List TrustRelation, l.length ≤ Storage.ghostBound (σ := σ) s ∧
    ∀ a b r, (look.world s).relation a b = some r → r ∈ l

/-- The rules about writing, for one trust or revocation. -/
def Look.Takes {S σ : Type} [Storage S σ] (look : Look S) (faulty : Prop) (q : TrustRelation) : Prop :=
  ∀ s, look.Ok s → (∀ a now, q = .auth a → look.Writes faulty s (Storage.updateAuth a now) ((look.world s).update q)) ∧
    (∀ r, q = .revocation r → look.Writes faulty s (Storage.revoke r) ((look.world s).update q))

/-- The rules about writing, for roots. -/
def Look.TakesRoots {S σ : Type} [Storage S σ] (look : Look S) (faulty : Prop) : Prop :=
  ∀ s, look.Ok s → ∀ k f, f ≤ 16 → look.Writes faulty s (Storage.setRootWeightFactor k f) ((look.world s).setRoot k (16 - f))

/-- A storage that keeps to the rules.  Only if `faulty`, its methods may fail, and then change nothing.  The order of the lists is free and may change
whenever something is written. -/
structure Contract {S σ : Type} [Storage S σ] (look : Look S) (faulty : Prop) : Prop extends ReadContract (σ := σ) look faulty where
  setRootWeightFactor : ∀ s, look.Ok s → ∀ k f, f ≤ 16 →
    look.Writes faulty s (Storage.setRootWeightFactor k f) ((look.world s).setRoot k (16 - f))
  updateAuth : ∀ s, look.Ok s → ∀ a now, look.Writes faulty s (Storage.updateAuth a now) ((look.world s).update (.auth a))
  revoke : ∀ s, look.Ok s → ∀ r, look.Writes faulty s (Storage.revoke r) ((look.world s).update (.revocation r))

/-- The runs of the library over a storage that is empty at the beginning.  Between calls the storage may be reorganised (`stir`): its order and what will fail
may change, what is stored may not. -/
inductive Look.Trace {S σ : Type} [Storage S σ] (look : Look S) : List (Op × Outcome TrustGraphError Answer) → S → Prop
  | start {s} : look.Ok s → look.world s = Spec.World.empty → Look.Trace look [] s
  | step {tr s} (op : Op) : Look.Trace look tr s → Look.Trace look (tr ++ [(op, (op.callIn s).1)]) (op.callIn s).2
  | stir {tr s s'} : look.Ok s' → look.world s' = look.world s → Look.Trace look tr s → Look.Trace look tr s'

end TG
