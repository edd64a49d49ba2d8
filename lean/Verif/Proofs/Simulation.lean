/-
A storage that represents another one: the functions of the trust graph, which only use the trait `Storage`, then act on both alike.
-/
import Verif.Model.Graph

namespace TG
variable [Env]

/-- `y` acts on the representation `rep s` as `x` on `s`, for states with the invariant, which `x` keeps. -/
def Sim {S T ε α : Type} (rep : S → T) (Inv : S → Prop) (x : M S ε α) (y : M T ε α) : Prop :=
  ∀ s, Inv s → y (rep s) = ((x s).1, rep (x s).2) ∧ Inv (x s).2

namespace Sim
variable {S T ε ε' α β : Type} {rep : S → T} {Inv : S → Prop}

omit [Env] in
theorem pure' (a : α) : Sim rep Inv (pure a : M S ε α) (pure a) := fun _ h => ⟨rfl, h⟩

omit [Env] in
theorem lift (o : Outcome ε α) : Sim rep Inv (M.lift o : M S ε α) (M.lift o) := fun _ h => ⟨rfl, h⟩

omit [Env] in
theorem fail (e : ε) : Sim rep Inv (M.fail e : M S ε α) (M.fail e) := fun _ h => ⟨rfl, h⟩

omit [Env] in
theorem bind {x : M S ε α} {y : M T ε α} {f : α → M S ε β} {g : α → M T ε β}
    (h : Sim rep Inv x y) (hf : ∀ a, Sim rep Inv (f a) (g a)) : Sim rep Inv (x >>= f) (y >>= g) := by
  intro s hs
  obtain ⟨h1, h2⟩ := h s hs
  rw [M.bind_run, M.bind_run, h1]
  rcases hx : x s with ⟨o, s'⟩
  rw [hx] at h2
  cases o with
  | ok a => exact hf a s' h2
  | err e => exact ⟨rfl, h2⟩
  | panic => exact ⟨rfl, h2⟩
  | diverge => exact ⟨rfl, h2⟩

omit [Env] in
theorem mapErr {x : M S ε α} {y : M T ε α} (h : Sim rep Inv x y) (f : ε → ε') :
    Sim rep Inv (x.mapErr f) (y.mapErr f) := by
  intro s hs
  obtain ⟨h1, h2⟩ := h s hs
  rw [M.mapErr_run, M.mapErr_run, h1]
  exact ⟨rfl, h2⟩

end Sim

/-- One storage represents another: the methods act alike. -/
structure Represents {S T σ : Type} [Storage S σ] [Storage T σ] (rep : S → T) (Inv : S → Prop) : Prop where
  getRelation : ∀ a b, Sim rep Inv (Storage.getRelation (S := S) (σ := σ) a b) (Storage.getRelation a b)
  getAuthorizations : ∀ a, Sim rep Inv (Storage.getAuthorizations (S := S) (σ := σ) a) (Storage.getAuthorizations a)
  getRevocations : ∀ a, Sim rep Inv (Storage.getRevocations (S := S) (σ := σ) a) (Storage.getRevocations a)
  insert : ∀ r, Sim rep Inv (Storage.insert (S := S) (σ := σ) r) (Storage.insert r)
  getRootWeightFactor : ∀ a, Sim rep Inv (Storage.getRootWeightFactor (S := S) (σ := σ) a) (Storage.getRootWeightFactor a)
  setRootWeightFactor : ∀ a n, Sim rep Inv (Storage.setRootWeightFactor (S := S) (σ := σ) a n) (Storage.setRootWeightFactor a n)
  rootKeys : Sim rep Inv (Storage.rootKeys (S := S) (σ := σ)) Storage.rootKeys
  revoke : ∀ r, Sim rep Inv (Storage.revoke (S := S) (σ := σ) r) (Storage.revoke r)
  updateAuth : ∀ a t, Sim rep Inv (Storage.updateAuth (S := S) (σ := σ) a t) (Storage.updateAuth a t)
  removeExpired : ∀ t, Sim rep Inv (Storage.removeExpired (S := S) (σ := σ) t) (Storage.removeExpired t)
  ghostBound : ∀ s, Inv s → Storage.ghostBound (σ := σ) (rep s) = Storage.ghostBound (σ := σ) s

namespace Represents
open TrustGraph
variable {S T σ : Type} [Storage S σ] [Storage T σ] {rep : S → T} {Inv : S → Prop}

theorem extendAll (h : Represents (σ := σ) rep Inv) (cur : Chain) (as : List Auth) :
    Sim rep Inv (TrustGraph.extendAll (S := S) (σ := σ) cur as) (TrustGraph.extendAll (S := T) (σ := σ) cur as) := by
  induction as with
  | nil => exact .pure' _
  | cons a as ih =>
    unfold TrustGraph.extendAll
    split
    · exact .bind ((h.getRevocations _).mapErr _) fun _ => .bind ih fun _ => .pure' _
    · exact ih

theorem bfLoop (h : Represents (σ := σ) rep Inv) (roots : List PublicKey) (fuel : Nat) (queue : List Chain) (ts : List (List Auth)) :
    Sim rep Inv (TrustGraph.bfLoop (S := S) (σ := σ) roots fuel queue ts) (TrustGraph.bfLoop (S := T) (σ := σ) roots fuel queue ts) := by
  induction fuel generalizing queue ts with
  | zero =>
    cases queue with
    | nil => exact .pure' _
    | cons c cs => exact .lift _
  | succ fuel ih =>
    cases queue with
    | nil => exact .pure' _
    | cons c cs =>
      unfold TrustGraph.bfLoop
      exact .bind ((h.getAuthorizations _).mapErr _) fun _ => .bind (h.extendAll _ _) fun _ => ih _ _

theorem bfSearchPaths (h : Represents (σ := σ) rep Inv) (pk : PublicKey) (roots : List PublicKey) :
    Sim rep Inv (TrustGraph.bfSearchPaths (S := S) (σ := σ) pk roots) (TrustGraph.bfSearchPaths (S := T) (σ := σ) pk roots) := by
  intro s hs
  unfold TrustGraph.bfSearchPaths
  rw [h.ghostBound s hs]
  exact Sim.bind ((h.getAuthorizations _).mapErr _) (fun _ => Sim.bind ((h.getRevocations _).mapErr _)
    fun _ => h.bfLoop _ _ _ _) s hs

theorem getAllCerts (h : Represents (σ := σ) rep Inv) (pk : PublicKey) (now : Dur) :
    Sim rep Inv (TrustGraph.getAllCerts (S := S) (σ := σ) pk now) (TrustGraph.getAllCerts (S := T) (σ := σ) pk now) :=
  .bind ((h.removeExpired _).mapErr _) fun _ => .bind (h.rootKeys.mapErr _) fun _ =>
    .bind (h.bfSearchPaths _ _) fun _ => .lift _

theorem getAllCertsFrom (h : Represents (σ := σ) rep Inv) (pk issuer : PublicKey) (now : Dur) :
    Sim rep Inv (TrustGraph.getAllCertsFrom (S := S) (σ := σ) pk issuer now)
      (TrustGraph.getAllCertsFrom (S := T) (σ := σ) pk issuer now) :=
  .bind (h.getAllCerts _ _) fun _ => .pure' _

theorem weightFactorLoop (h : Represents (σ := σ) rep Inv) (cs : List Certificate) (wf : Nat) :
    Sim rep Inv (TrustGraph.weightFactorLoop (S := S) (σ := σ) cs wf) (TrustGraph.weightFactorLoop (S := T) (σ := σ) cs wf) := by
  induction cs generalizing wf with
  | nil => exact .pure' _
  | cons c cs ih =>
    unfold TrustGraph.weightFactorLoop
    split
    · exact .fail _
    · exact .bind ((h.getRootWeightFactor _).mapErr _) fun _ => .bind (.lift _) fun _ => .bind (.lift _) fun _ => ih _

theorem certificatesWeightFactor (h : Represents (σ := σ) rep Inv) (cs : List Certificate) :
    Sim rep Inv (TrustGraph.certificatesWeightFactor (S := S) (σ := σ) cs)
      (TrustGraph.certificatesWeightFactor (S := T) (σ := σ) cs) := by
  unfold TrustGraph.certificatesWeightFactor
  split
  · exact .pure' _
  · exact .bind (h.weightFactorLoop _ _) fun _ => .pure' _

theorem weight (h : Represents (σ := σ) rep Inv) (pk : PublicKey) (now : Dur) :
    Sim rep Inv (TrustGraph.weight (S := S) (σ := σ) pk now) (TrustGraph.weight (S := T) (σ := σ) pk now) := by
  refine .bind ((h.getRootWeightFactor _).mapErr _) fun r => .bind (h.getAllCerts _ _) fun _ =>
    .bind (h.certificatesWeightFactor _) fun wf => ?_
  cases wf <;> exact .pure' _

theorem weightFrom (h : Represents (σ := σ) rep Inv) (pk issuer : PublicKey) (now : Dur) :
    Sim rep Inv (TrustGraph.weightFrom (S := S) (σ := σ) pk issuer now) (TrustGraph.weightFrom (S := T) (σ := σ) pk issuer now) := by
  refine .bind (h.getAllCertsFrom _ _ _) fun _ => .bind (h.certificatesWeightFactor _) fun wf => ?_
  cases wf <;> exact .pure' _

theorem setRoot (h : Represents (σ := σ) rep Inv) (pk : PublicKey) (n : Nat) :
    Sim rep Inv (TrustGraph.setRoot (S := S) (σ := σ) pk n) (TrustGraph.setRoot (S := T) (σ := σ) pk n) :=
  (h.setRootWeightFactor _ _).mapErr _

theorem getNextWeight (h : Represents (σ := σ) rep Inv) (a b : PublicKey) (now : Dur) :
    Sim rep Inv (TrustGraph.getNextWeight (S := S) (σ := σ) a b now) (TrustGraph.getNextWeight (S := T) (σ := σ) a b now) := by
  refine .bind (h.weight _ _) fun w => ?_
  split <;> exact .pure' _

theorem addTrust (h : Represents (σ := σ) rep Inv) (t : Trust) (by' : PublicKey) (now : Dur) :
    Sim rep Inv (TrustGraph.addTrust (S := S) (σ := σ) t by' now) (TrustGraph.addTrust (S := T) (σ := σ) t by' now) := by
  refine .bind (.lift _) fun _ => .bind (h.getNextWeight _ _ _) fun w => ?_
  split
  · exact .pure' _
  · exact .bind ((h.updateAuth _ _).mapErr _) fun _ => .pure' _

theorem addLoop (h : Represents (σ := σ) rep Inv) (now : Dur) (by' : PublicKey) (ts : List Trust) :
    Sim rep Inv (TrustGraph.addLoop (S := S) (σ := σ) now by' ts) (TrustGraph.addLoop (S := T) (σ := σ) now by' ts) := by
  induction ts generalizing by' with
  | nil => exact .pure' _
  | cons t ts ih => exact .bind (h.addTrust _ _ _) fun _ => ih _

theorem add (h : Represents (σ := σ) rep Inv) (c : Certificate) (now : Dur) :
    Sim rep Inv (TrustGraph.add (S := S) (σ := σ) c now) (TrustGraph.add (S := T) (σ := σ) c now) := by
  unfold TrustGraph.add
  split
  · exact .fail _
  · exact h.addLoop _ _ _

theorem revoke' (h : Represents (σ := σ) rep Inv) (r : Revocation) :
    Sim rep Inv (TrustGraph.revoke (S := S) (σ := σ) r) (TrustGraph.revoke (S := T) (σ := σ) r) :=
  .bind (.lift _) fun _ => (h.revoke _).mapErr _

theorem getRevocations' (h : Represents (σ := σ) rep Inv) (pk : PublicKey) :
    Sim rep Inv (TrustGraph.getRevocations (S := S) (σ := σ) pk) (TrustGraph.getRevocations (S := T) (σ := σ) pk) :=
  (h.getRevocations _).mapErr _

end Represents

end TG
