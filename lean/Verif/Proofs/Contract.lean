/-
The library over a storage that keeps to the contract: helper lemmas.
-/
import Verif.Spec.Contract
import Verif.Proofs.Machine

namespace TG
variable {S σ : Type}

/-! ### Triples -/

/-- From states with `P` the call ends with an answer and `Q`, or, only if `faulty`, with an error of the storage and `E`. -/
def Tri (faulty : Prop) (P : S → Prop) {α : Type} (x : M S TrustGraphError α) (Q : α → S → Prop) (E : S → Prop) : Prop :=
  ∀ s, P s → ∃ s', (∃ a, x s = (.ok a, s') ∧ Q a s') ∨ (faulty ∧ x s = (.err .internalStorageError, s') ∧ E s')

namespace Tri
variable {faulty : Prop} {P P' : S → Prop} {α β : Type} {x : M S TrustGraphError α} {f : α → M S TrustGraphError β}
  {Q Q' : α → S → Prop} {R : β → S → Prop} {E E' : S → Prop}

theorem pure' (a : α) (h : ∀ s, P s → Q a s) : Tri faulty P (pure a) Q E := fun s hs => ⟨s, .inl ⟨a, rfl, h s hs⟩⟩

theorem lift {o : Outcome TrustGraphError α} {a : α} (ho : o = .ok a) (h : ∀ s, P s → Q a s) : Tri faulty P (M.lift o) Q E := by
  subst ho; exact fun s hs => ⟨s, .inl ⟨a, rfl, h s hs⟩⟩

theorem bind (h : Tri faulty P x Q E) (hf : ∀ a, Tri faulty (Q a) (f a) R E) : Tri faulty P (x >>= f) R E := by
  intro s hs
  rw [M.bind_run]
  obtain ⟨s', ⟨a, h1, h2⟩ | ⟨h1, h2, h3⟩⟩ := h s hs
  · rw [h1]; exact hf a s' h2
  · rw [h2]; exact ⟨s', .inr ⟨h1, rfl, h3⟩⟩

theorem conseq (h : Tri faulty P x Q E) (hP : ∀ s, P' s → P s) (hQ : ∀ a s, Q a s → Q' a s) (hE : ∀ s, E s → E' s) :
    Tri faulty P' x Q' E' := by
  intro s hs
  obtain ⟨s', ⟨a, h1, h2⟩ | ⟨h1, h2, h3⟩⟩ := h s (hP s hs)
  · exact ⟨s', .inl ⟨a, h1, hQ a s' h2⟩⟩
  · exact ⟨s', .inr ⟨h1, h2, hE s' h3⟩⟩

/-- A hypothesis about the state that does not depend on it. -/
theorem assume {p : Prop} (h : p → Tri faulty P x Q E) : Tri faulty (fun s => p ∧ P s) x Q E := fun s hs => h hs.1 s hs.2

end Tri

variable [Env]

/-! ### Worlds that calls lead to -/

/-- Relations are kept under their keys, chain lengths are at most 16, and there are at most `n` relations. -/
structure Spec.World.Fit (w : Spec.World) (n : Nat) : Prop where
  keyed : ∀ a b r, w.relation a b = some r → r.issuedBy = a ∧ r.issuedFor = b
  roots : ∀ k m, w.roots k = some m → m ≤ 16
  finite : ∃ l : List TrustRelation, l.length ≤ n ∧ ∀ a b r, w.relation a b = some r → r ∈ l

namespace Spec.World
variable {w : Spec.World} {n : Nat}

theorem Fit.empty : Spec.World.empty.Fit 0 where
  keyed _ _ _ h := by cases h
  roots _ _ h := by cases h
  finite := ⟨[], le_refl _, fun _ _ _ h => by cases h⟩

theorem Fit.mono {m : Nat} (h : w.Fit n) (hm : n ≤ m) : w.Fit m := by
  obtain ⟨l, hl, h3⟩ := h.finite
  exact ⟨h.keyed, h.roots, l, le_trans hl hm, h3⟩

theorem Fit.collect (h : w.Fit n) (now : Dur) : (w.collect now).Fit n := by
  obtain ⟨l, hl, h3⟩ := h.finite
  exact ⟨fun a b r hr => h.keyed a b r (collect_relation.mp hr).1, h.roots, l, hl, fun a b r hr => h3 a b r (collect_relation.mp hr).1⟩

theorem Fit.update (h : w.Fit n) (r : TrustRelation) : (w.update r).Fit (n + 1) := by
  obtain ⟨l, hl, h3⟩ := h.finite
  have hrel : ∀ a b q, (w.update r).relation a b = some q → (a = r.issuedBy ∧ b = r.issuedFor ∧ q = r.trunc) ∨ w.relation a b = some q := by
    intro a b q hq
    unfold Spec.World.update at hq
    dsimp only at hq
    split at hq
    · rename_i hc
      cases hq
      exact .inl ⟨hc.1, hc.2.1, rfl⟩
    · exact .inr hq
  refine ⟨?_, h.roots, r.trunc :: l, by rw [List.length_cons]; omega, ?_⟩
  · intro a b q hq
    rcases hrel a b q hq with ⟨rfl, rfl, rfl⟩ | hq
    · exact ⟨r.trunc_issuedBy, r.trunc_issuedFor⟩
    · exact h.keyed a b q hq
  · intro a b q hq
    rcases hrel a b q hq with ⟨-, -, rfl⟩ | hq
    · exact List.mem_cons_self
    · exact List.mem_cons_of_mem _ (h3 a b q hq)

theorem Fit.setRoot (h : w.Fit n) (k : PublicKey) (m : Nat) : (w.setRoot k m).Fit n := by
  refine ⟨h.keyed, ?_, h.finite⟩
  intro a x hx
  unfold Spec.World.setRoot at hx
  dsimp only at hx
  split at hx
  · cases hx; omega
  · exact h.roots a x hx

end Spec.World

/-! ### Reading and writing -/

namespace Look
variable [Storage S σ] {look : Look S} {faulty : Prop}

/-- The storage represents `w`. -/
def At (look : Look S) (w : Spec.World) (s : S) : Prop := look.Ok s ∧ look.world s = w

omit [Storage S σ] in
theorem Same.refl {s : S} (h : look.Ok s) : look.Same s s := ⟨h, rfl, rfl, rfl, rfl⟩

omit [Storage S σ] in
theorem Same.trans {a b c : S} (h : look.Same a b) (h' : look.Same b c) : look.Same a c :=
  ⟨h'.ok, h'.world.trans h.world, h'.auths.trans h.auths, h'.revs.trans h.revs, h'.roots.trans h.roots⟩

omit [Storage S σ] in
theorem Same.at {a b : S} {w : Spec.World} (h : look.Same a b) (ha : look.At w a) : look.At w b := ⟨h.ok, h.world.trans ha.2⟩

omit [Storage S σ] in
theorem Reads.tri {α : Type} {x : M S σ α} {s0 : S} {a : α} (h : ∀ s, look.Same s0 s → look.Reads faulty s x a) :
    Tri faulty (look.Same s0) (TrustGraph.storage x) (fun r s => r = a ∧ look.Same s0 s) (look.Same s0) := by
  intro s hs
  obtain ⟨s', h1, h2 | ⟨hf, e, h2⟩⟩ := h s hs
  · exact ⟨s', .inl ⟨a, Search.storage_ok h2, rfl, hs.trans h1⟩⟩
  · exact ⟨s', .inr ⟨hf, Search.storage_err h2, hs.trans h1⟩⟩

omit [Storage S σ] in
theorem Reads.tri_at {α : Type} {x : M S σ α} {w : Spec.World} {a : α} (h : ∀ s, look.At w s → look.Reads faulty s x a) :
    Tri faulty (look.At w) (TrustGraph.storage x) (fun r s => r = a ∧ look.At w s) (look.At w) := by
  intro s hs
  obtain ⟨s', h1, h2 | ⟨hf, e, h2⟩⟩ := h s hs
  · exact ⟨s', .inl ⟨a, Search.storage_ok h2, rfl, h1.at hs⟩⟩
  · exact ⟨s', .inr ⟨hf, Search.storage_err h2, h1.at hs⟩⟩

omit [Storage S σ] in
theorem Writes.tri {x : M S σ Unit} {w w' : Spec.World} (h : ∀ s, look.At w s → look.Writes faulty s x w') :
    Tri faulty (look.At w) (TrustGraph.storage x) (fun _ => look.At w') (look.At w) := by
  intro s hs
  obtain ⟨s', h1, ⟨h2, h3⟩ | ⟨hf, ⟨e, h2⟩, h3⟩⟩ := h s hs
  · exact ⟨s', .inl ⟨(), Search.storage_ok h2, h1, h3⟩⟩
  · exact ⟨s', .inr ⟨hf, Search.storage_err h2, h1, h3.trans hs.2⟩⟩

/-- What the search sees. -/
def view (look : Look S) (s : S) : Search.View := ⟨look.auths s, look.revs s⟩

end Look

namespace ReadContract
open Look
variable [Storage S σ] {look : Look S} {faulty : Prop} (c : ReadContract (σ := σ) look faulty)
include c

theorem view_snapshot {s : S} {n : Nat} (hs : look.Ok s) (hf : (look.world s).Fit n) :
    (look.view s).snapshot (look.roots s) = (look.world s).graph := by
  unfold Search.View.snapshot Spec.World.graph
  congr 1
  · funext a t
    exact propext (c.mem_auths s hs _ _)
  · funext a b
    apply propext
    rw [List.mem_map]
    constructor
    · rintro ⟨r, hr, rfl⟩
      exact ⟨r, (c.mem_revs s hs _ _).mp hr⟩
    · rintro ⟨r, hr⟩
      have := (hf.keyed _ _ _ hr).1
      subst this
      exact ⟨r, (c.mem_revs s hs _ _).mpr hr, rfl⟩
  · funext k
    exact propext (c.mem_roots s hs k)

theorem lawful {s : S} {n : Nat} (hs : look.Ok s) (hf : (look.world s).Fit n) {m : Nat} {l : List TrustRelation} (hl : l.length ≤ m)
    (hm : ∀ a b r, (look.world s).relation a b = some r → r ∈ l) : Search.Lawful (look.view s) m where
  auth_for k a ha := (hf.keyed _ _ _ ((c.mem_auths s hs k a).mp ha)).2
  rev_for k r hr := (hf.keyed _ _ _ ((c.mem_revs s hs k r).mp hr)).2
  nodup k := c.auths_nodup s hs k
  excl k a ha r hr e := by
    have h1 := (c.mem_auths s hs k a).mp ha
    have h2 := (c.mem_revs s hs k r).mp hr
    rw [e, h1] at h2
    cases h2
  finite := by
    refine ⟨l.filterMap (fun r => match r with | .auth a => some a | .revocation _ => none), le_trans (List.length_filterMap_le _ _) hl, ?_⟩
    intro k a ha
    exact List.mem_filterMap.mpr ⟨_, hm _ _ _ ((c.mem_auths s hs k a).mp ha), rfl⟩

theorem revs_tri {s0 : S} (k : PublicKey) :
    Tri faulty (look.Same s0) (TrustGraph.storage (Storage.getRevocations k)) (fun r s => r = look.revs s0 k ∧ look.Same s0 s) (look.Same s0) :=
  Reads.tri fun s hs => by rw [← hs.revs]; exact c.getRevocations s hs.ok k

theorem auths_tri {s0 : S} (k : PublicKey) :
    Tri faulty (look.Same s0) (TrustGraph.storage (Storage.getAuthorizations k)) (fun r s => r = look.auths s0 k ∧ look.Same s0 s) (look.Same s0) :=
  Reads.tri fun s hs => by rw [← hs.auths]; exact c.getAuthorizations s hs.ok k

theorem extendAll_tri {s0 : S} (cur : Chain) (l : List Auth) :
    Tri faulty (look.Same s0) (TrustGraph.extendAll (S := S) cur l)
      (fun r s => r = (l.filter (fun a => cur.canBeExtendedBy a.issuedBy)).map (fun a => (cur.addRevocations ((look.view s0).revs a.issuedBy)).push a) ∧
        look.Same s0 s) (look.Same s0) := by
  induction l with
  | nil => exact .pure' _ fun s hs => ⟨rfl, hs⟩
  | cons a l ih =>
    unfold TrustGraph.extendAll
    by_cases hc : cur.canBeExtendedBy a.issuedBy = true
    · rw [if_pos hc]
      refine .bind (c.revs_tri _) fun rs => .assume ?_
      rintro rfl
      refine .bind ih fun more => .assume ?_
      rintro rfl
      exact .pure' _ fun s hs => ⟨by simp [hc, Look.view], hs⟩
    · rw [if_neg hc]
      exact ih.conseq (fun _ h => h) (fun r s h => ⟨by rw [h.1]; simp [hc], h.2⟩) fun _ h => h

theorem bfLoop_tri {s0 : S} (roots : List PublicKey) (fuel : Nat) (q : List Chain) (acc res : List (List Auth))
    (h : Search.loop (look.view s0) roots fuel q acc = some res) :
    Tri faulty (look.Same s0) (TrustGraph.bfLoop (S := S) roots fuel q acc) (fun r s => r = res ∧ look.Same s0 s) (look.Same s0) := by
  induction fuel generalizing q acc with
  | zero =>
    cases q with
    | nil => cases h; exact .pure' _ fun s hs => ⟨rfl, hs⟩
    | cons c q => cases h
  | succ fuel ih =>
    cases q with
    | nil => cases h; exact .pure' _ fun s hs => ⟨rfl, hs⟩
    | cons cur q =>
      rw [Search.loop] at h
      unfold TrustGraph.bfLoop
      refine .bind (c.auths_tri _) fun l => .assume ?_
      rintro rfl
      refine .bind (c.extendAll_tri _ _) fun l => .assume ?_
      rintro rfl
      exact ih _ _ h

/-- The search from a state. -/
theorem bfSearchPaths_tri {s0 : S} {n : Nat} (hs0 : look.Ok s0) (hf : (look.world s0).Fit n) (target : PublicKey) :
    Tri faulty (look.Same s0) (TrustGraph.bfSearchPaths (S := S) target (look.roots s0))
      (fun r s => (∃ b, Search.Lawful (look.view s0) b ∧ r = Search.paths (look.view s0) b (look.roots s0) target) ∧ look.Same s0 s) (look.Same s0) := by
  intro s hs
  obtain ⟨l, hl, hm⟩ := c.ghostBound s hs.ok
  have hlaw : Search.Lawful (look.view s0) (Storage.ghostBound (σ := σ) s) :=
    c.lawful hs0 hf hl (by rw [← hs.world]; exact hm)
  have hres := Search.loop_result hlaw (look.roots s0) target
  unfold TrustGraph.bfSearchPaths
  dsimp only
  refine Tri.conseq (P := look.Same s0) (Q := fun r s' => r = Search.paths (look.view s0) (Storage.ghostBound (σ := σ) s) (look.roots s0) target ∧ look.Same s0 s')
    (E := look.Same s0) ?_ (fun _ h => h) ?_ (fun _ h => h) s hs
  · refine .bind (c.auths_tri _) fun l => .assume ?_
    rintro rfl
    refine .bind (c.revs_tri _) fun l => .assume ?_
    rintro rfl
    exact c.bfLoop_tri _ _ _ _ _ hres
  · rintro r s' ⟨rfl, h⟩
    exact ⟨⟨_, hlaw, rfl⟩, h⟩

/-- `get_all_certs`. -/
theorem getAllCerts_tri {w : Spec.World} {n : Nat} (hf : w.Fit n) (k : PublicKey) (now : Dur) :
    Tri faulty (look.At w) (TrustGraph.getAllCerts (S := S) k now)
      (fun cs s => ((w.collect now).Certs k (fun _ => True) cs) ∧ look.At (w.collect now) s)
      (fun s => look.At w s ∨ look.At (w.collect now) s) := by
  have hfc := hf.collect now
  unfold TrustGraph.getAllCerts
  refine .bind (Q := fun _ => look.At (w.collect now))
    ((Writes.tri (w' := w.collect now) fun s hs => by rw [← hs.2]; exact c.removeExpired s hs.1 now).conseq (fun _ h => h) (fun _ _ h => h) fun _ h => .inl h)
    fun _ => ?_
  intro s0 hs0
  have hF : (look.world s0).Fit n := by rw [hs0.2]; exact hfc
  refine (Tri.conseq (P' := look.Same s0) (E := look.Same s0) (Q := fun cs s => (w.collect now).Certs k (fun _ => True) cs ∧ look.Same s0 s) ?_
    (fun _ h => h) (fun cs s h => ⟨h.1, h.2.at hs0⟩) fun s h => .inr (h.at hs0)) s0 (Same.refl hs0.1)
  refine .bind (Reads.tri (a := look.roots s0) fun s hs => by rw [← hs.roots]; exact c.rootKeys s hs.ok) fun _ => .assume ?_
  rintro rfl
  refine .bind (c.bfSearchPaths_tri hs0.1 hF k) fun ps => .assume ?_
  rintro ⟨b, hlaw, rfl⟩
  have hmem : ∀ cert, cert ∈ (Search.paths (look.view s0) b (look.roots s0) k).map TrustGraph.toCertificate ↔
      Spec.Admissible (w.collect now).graph k cert := by
    intro cert
    rw [← hs0.2, ← c.view_snapshot hs0.1 hF, Search.admissible_iff hlaw]
    simp only [List.mem_map, Search.mem_paths_iff hlaw]
    constructor
    · rintro ⟨l, ⟨hg, ht⟩, rfl⟩
      exact ⟨l.reverse, hg, ht, (Db.toCertificate_chain l).symm⟩
    · rintro ⟨l, hg, ht, e⟩
      refine ⟨l.reverse, by simpa using ⟨hg, ht⟩, ?_⟩
      cases cert
      rw [TrustGraph.toCertificate, Certificate.newUnverified]
      simpa using e
  refine .lift (Db.filterShort_id _ fun cert hc => ?_) fun s hs => ⟨⟨?_, ?_, fun cert => by rw [hmem]; simp⟩, hs⟩
  · have := ((hmem cert).mp hc).linked.long
    omega
  · refine List.Nodup.map_on ?_ (Search.paths_nodup hlaw _ _)
    intro x hx y hy e
    rw [Search.mem_paths_iff hlaw] at hx hy
    have e' : x.reverse.map (·.trust) = y.reverse.map (·.trust) := by
      rw [← Db.toCertificate_chain, ← Db.toCertificate_chain, e]
    have := Search.trusts_inj hlaw hx.1 hx.2 hy.1 hy.2 e'
    simpa using this
  · rw [List.pairwise_map]
    refine (Search.paths_sorted _ _ _).imp ?_
    intro x y h
    rw [Db.toCertificate_chain, Db.toCertificate_chain]
    simpa using h

/-- Certificates are not longer than there are relations. -/
theorem length_le {s : S} {n : Nat} (hs : look.Ok s) (hf : (look.world s).Fit n) {k : PublicKey} {cert : Certificate}
    (h : Spec.Admissible (look.world s).graph k cert) : cert.chain.length ≤ n := by
  obtain ⟨l, hl, hm⟩ := hf.finite
  have hlaw := c.lawful hs hf hl hm
  rw [← c.view_snapshot hs hf, Search.admissible_iff hlaw] at h
  obtain ⟨p, hg, -, e⟩ := h
  rw [← e, List.length_map]
  exact hg.length_le hlaw

/-- `get_all_certs_from`. -/
theorem getAllCertsFrom_tri {w : Spec.World} {n : Nat} (hf : w.Fit n) (k a : PublicKey) (now : Dur) :
    Tri faulty (look.At w) (TrustGraph.getAllCertsFrom (S := S) k a now)
      (fun cs s => ((w.collect now).Certs k (fun c => ∃ t ∈ c.chain, t.issuedFor = a) cs) ∧ look.At (w.collect now) s)
      (fun s => look.At w s ∨ look.At (w.collect now) s) := by
  refine .bind (c.getAllCerts_tri hf k now) fun cs => .assume fun hc => .pure' _ fun s hs => ⟨⟨?_, ?_, ?_⟩, hs⟩
  · exact hc.1.filter _
  · exact hc.2.1.filter _
  · intro cert
    rw [List.mem_filter, hc.2.2 cert]
    simp

end ReadContract

/-! ### Weights -/

namespace Spec.World
variable {w : Spec.World}

/-- The number computed for one certificate. -/
def factorOf (w : Spec.World) (cert : Certificate) : Nat :=
  match cert.chain with
  | [] => 0
  | root :: rest => 16 - (w.roots root.issuedFor).getD 16 + rest.length

/-- What the weight computation needs to know about a certificate. -/
structure Weighable (w : Spec.World) (cert : Certificate) : Prop where
  ne : cert.chain ≠ []
  root : ∀ t, cert.chain[0]? = some t → (w.roots t.issuedFor).isSome
  short : cert.chain.length + 16 < 2 ^ 32

theorem Weighable.factor_lt {cert : Certificate} (h : w.Weighable cert) : w.factorOf cert < 2 ^ 32 := by
  unfold factorOf
  have hs := h.short
  rcases hch : cert.chain with _ | ⟨t, ts⟩
  · simp
  · rw [hch, List.length_cons] at hs
    dsimp only
    omega

theorem Weighable.worth {n : Nat} {cert : Certificate} {k : PublicKey} {p : Certificate → Prop} (h : w.Weighable cert) (hf : w.Fit n)
    (ha : Admissible w.graph k cert) (hp : p cert) : w.Worth k p (getWeightFromFactor (w.factorOf cert)) := by
  obtain ⟨ts⟩ := cert
  rcases ts with _ | ⟨root, rest⟩
  · exact absurd rfl h.ne
  · obtain ⟨m, hm⟩ := Option.isSome_iff_exists.mp (h.root root rfl)
    refine ⟨root, rest, m, ha, hp, hm, ?_⟩
    have := hf.roots _ _ hm
    simp only [factorOf, hm, Option.getD_some, getWeightFromFactor, maxWeightFactor]
    congr 1
    omega

theorem Worth.exists {n : Nat} {k : PublicKey} {p : Certificate → Prop} {x : Nat} (h : w.Worth k p x) (hf : w.Fit n) :
    ∃ cert, Admissible w.graph k cert ∧ p cert ∧ x = getWeightFromFactor (w.factorOf cert) := by
  obtain ⟨root, rest, m, ha, hp, hm, rfl⟩ := h
  refine ⟨_, ha, hp, ?_⟩
  have := hf.roots _ _ hm
  simp only [factorOf, hm, Option.getD_some, getWeightFromFactor, maxWeightFactor]
  congr 1
  omega

end Spec.World

namespace ReadContract
open Look
variable [Storage S σ] {look : Look S} {faulty : Prop} (c : ReadContract (σ := σ) look faulty)
include c

theorem weighable {w : Spec.World} {n : Nat} (hf : w.Fit n) (hn : n + 16 < 2 ^ 32) {s : S} (hs : look.At w s) {k : PublicKey} {cert : Certificate}
    (h : Spec.Admissible w.graph k cert) : w.Weighable cert := by
  refine ⟨?_, fun t ht => (h.linked.root t ht).1, ?_⟩
  · intro e
    have := h.linked.long
    rw [e] at this
    simp at this
  · have := c.length_le hs.1 (n := n) (by rw [hs.2]; exact hf) (by rw [hs.2]; exact h)
    omega

theorem weightFactorLoop_tri {w : Spec.World} {n : Nat} (hf : w.Fit n) (cs : List Certificate) (h : ∀ cert ∈ cs, w.Weighable cert) (wf : Nat) :
    Tri faulty (look.At w) (TrustGraph.weightFactorLoop (S := S) cs wf)
      (fun r s => r = cs.foldl (fun x cert => min x (w.factorOf cert)) wf ∧ look.At w s) (look.At w) := by
  induction cs generalizing wf with
  | nil => exact .pure' _ fun s hs => ⟨rfl, hs⟩
  | cons cert cs ih =>
    have hc := h cert (by simp)
    unfold TrustGraph.weightFactorLoop
    rcases hch : cert.chain with _ | ⟨t, ts⟩
    · exact absurd hch hc.ne
    · obtain ⟨m, hm⟩ := Option.isSome_iff_exists.mp (hc.root t (by rw [hch]; rfl))
      have hm16 := hf.roots _ _ hm
      have hs := hc.short
      rw [hch] at hs
      dsimp only
      refine .bind (Reads.tri_at (a := some (16 - m)) fun s hs => ?_) fun r => .assume ?_
      · have := c.getRootWeightFactor s hs.1 t.issuedFor
        rw [hs.2, hm] at this
        exact this
      · rintro rfl
        refine .bind (Q := fun f s => f = 16 - m ∧ look.At w s) (.lift (Outcome.ofOption_some _ _) fun s hs => ⟨rfl, hs⟩) fun f => .assume ?_
        rintro rfl
        refine .bind (Q := fun f s => f = 16 - m + (ts.length + 1 - 1) ∧ look.At w s)
          (.lift (Db.chainFactor_eq (by omega) (by simp) hs) fun s hs => ⟨rfl, hs⟩) fun f => .assume ?_
        rintro rfl
        have : w.factorOf cert = 16 - m + (ts.length + 1 - 1) := by
          unfold Spec.World.factorOf; rw [hch]; simp [hm]
        rw [List.foldl_cons, this]
        exact ih (fun x hx => h x (List.mem_cons_of_mem _ hx)) _

/-- The least of the numbers, which is that of a certificate of the greatest weight. -/
theorem certificatesWeightFactor_tri {w : Spec.World} {n : Nat} (hf : w.Fit n) (cs : List Certificate) (h : ∀ cert ∈ cs, w.Weighable cert) :
    Tri faulty (look.At w) (TrustGraph.certificatesWeightFactor (S := S) cs)
      (fun r s => ((cs = [] ∧ r = none) ∨ ∃ cert ∈ cs, r = some (w.factorOf cert) ∧
        ∀ cert' ∈ cs, getWeightFromFactor (w.factorOf cert') ≤ getWeightFromFactor (w.factorOf cert)) ∧ look.At w s) (look.At w) := by
  rcases cs with _ | ⟨c0, cs⟩
  · exact .pure' _ fun s hs => ⟨.inl ⟨rfl, rfl⟩, hs⟩
  · unfold TrustGraph.certificatesWeightFactor
    dsimp only
    refine .bind (c.weightFactorLoop_tri hf _ h _) fun r => .assume ?_
    intro hr
    refine .pure' _ fun s hs => ⟨.inr ?_, hs⟩
    obtain ⟨cert, hc, hm⟩ : ∃ cert ∈ c0 :: cs, r = w.factorOf cert := by
      rcases Db.foldl_min_attained w.factorOf (c0 :: cs) (2 ^ 32 - 1) with h' | ⟨cert, hc, h'⟩
      · refine ⟨c0, by simp, ?_⟩
        have h1 := (Db.foldl_min_le w.factorOf (c0 :: cs) (2 ^ 32 - 1)).2 c0 (by simp)
        have h2 := (h c0 (by simp)).factor_lt
        rw [h'] at h1 hr
        omega
      · exact ⟨cert, hc, hr.trans h'⟩
    refine ⟨cert, hc, by rw [hm], ?_⟩
    intro cert' hc'
    have := (Db.foldl_min_le w.factorOf (c0 :: cs) (2 ^ 32 - 1)).2 cert' hc'
    rw [← hr, hm] at this
    exact Db.getWeightFromFactor_anti this

/-- `weight`. -/
theorem weight_tri {w : Spec.World} {n : Nat} (hf : w.Fit n) (hn : n + 16 < 2 ^ 32) (k : PublicKey) (now : Dur) :
    Tri faulty (look.At w) (TrustGraph.weight (S := S) k now)
      (fun x s => (w.collect now).Weight k x ∧ look.At (w.collect now) s) (fun s => look.At w s ∨ look.At (w.collect now) s) := by
  have hfc := hf.collect now
  unfold TrustGraph.weight
  refine .bind (Q := fun r s => r = (w.roots k).map (fun n => 16 - n) ∧ look.At w s)
    ((Reads.tri_at (a := (w.roots k).map (fun n => 16 - n)) fun s hs => ?_).conseq (fun _ h => h) (fun _ _ h => h) fun _ h => .inl h) fun r => .assume ?_
  · rw [← hs.2]; exact c.getRootWeightFactor s hs.1 k
  intro hr
  refine .bind (c.getAllCerts_tri hf k now) fun cs => .assume ?_
  intro hcs s hs
  have hw : ∀ cert ∈ cs, (w.collect now).Weighable cert := fun cert hc => c.weighable hfc hn hs ((hcs.2.2 cert).mp hc).1
  refine Tri.bind (E := fun s => look.At w s ∨ look.At (w.collect now) s)
    ((c.certificatesWeightFactor_tri hfc cs hw).conseq (fun _ h => h) (fun _ _ h => h) fun _ h => .inr h) (fun o => .assume ?_) s hs
  intro ho
  have finish : ∀ m : Nat, (∀ n, (w.collect now).roots k = some n → 2 ^ n = m) →
      (m = 0 ∨ (∃ n, (w.collect now).roots k = some n ∧ m = 2 ^ n) ∨ (w.collect now).Worth k (fun _ => True) m) →
      Tri faulty (look.At (w.collect now)) (match (generalizing := false) o with
        | some wf => pure (max m (getWeightFromFactor wf))
        | none => pure m : M S TrustGraphError Nat)
      (fun x s => (w.collect now).Weight k x ∧ look.At (w.collect now) s) (fun s => look.At w s ∨ look.At (w.collect now) s) := by
    intro m hub hat
    rcases ho with ⟨rfl, rfl⟩ | ⟨cert, hc, rfl, hmax⟩
    · refine .pure' _ fun s hs => ⟨⟨hat, ?_⟩, hs⟩
      rintro x (rfl | ⟨n', hn', rfl⟩ | hx)
      · exact Nat.zero_le _
      · rw [hub n' hn']
      · obtain ⟨cert, ha, -⟩ := hx.exists hfc
        exact absurd ((hcs.2.2 cert).mpr ⟨ha, trivial⟩) (by simp)
    · refine .pure' _ fun s hs => ⟨⟨?_, ?_⟩, hs⟩
      · rcases le_total m (getWeightFromFactor ((w.collect now).factorOf cert)) with h | h
        · rw [max_eq_right h]
          exact .inr (.inr ((hw cert hc).worth hfc ((hcs.2.2 cert).mp hc).1 trivial))
        · rw [max_eq_left h]
          exact hat
      · rintro x (rfl | ⟨n', hn', rfl⟩ | hx)
        · exact Nat.zero_le _
        · rw [hub n' hn']; exact le_max_left _ _
        · obtain ⟨cert', ha, -, rfl⟩ := hx.exists hfc
          exact le_trans (hmax cert' ((hcs.2.2 cert').mpr ⟨ha, trivial⟩)) (le_max_right _ _)
  rcases hr' : w.roots k with _ | n'
  · rw [hr'] at hr
    subst hr
    refine finish 0 (fun n' hn' => ?_) (.inl rfl)
    rw [show (w.collect now).roots k = none from hr'] at hn'
    cases hn'
  · rw [hr'] at hr
    subst hr
    have h16 := hf.roots _ _ hr'
    have e : getWeightFromFactor (16 - n') = 2 ^ n' := by
      unfold getWeightFromFactor maxWeightFactor
      congr 1
      omega
    refine finish (getWeightFromFactor (16 - n')) (fun m hm => ?_) (.inr (.inl ⟨n', hr', e⟩))
    rw [show (w.collect now).roots k = some n' from hr'] at hm
    cases hm
    exact e.symm

/-- `weight_from`. -/
theorem weightFrom_tri {w : Spec.World} {n : Nat} (hf : w.Fit n) (hn : n + 16 < 2 ^ 32) (k a : PublicKey) (now : Dur) :
    Tri faulty (look.At w) (TrustGraph.weightFrom (S := S) k a now)
      (fun x s => (w.collect now).WeightFrom k a x ∧ look.At (w.collect now) s) (fun s => look.At w s ∨ look.At (w.collect now) s) := by
  have hfc := hf.collect now
  unfold TrustGraph.weightFrom
  refine .bind (c.getAllCertsFrom_tri hf k a now) fun cs => .assume ?_
  intro hcs s hs
  have hw : ∀ cert ∈ cs, (w.collect now).Weighable cert := fun cert hc => c.weighable hfc hn hs ((hcs.2.2 cert).mp hc).1
  refine Tri.bind (E := fun s => look.At w s ∨ look.At (w.collect now) s)
    ((c.certificatesWeightFactor_tri hfc cs hw).conseq (fun _ h => h) (fun _ _ h => h) fun _ h => .inr h) (fun o => .assume ?_) s hs
  intro ho
  rcases ho with ⟨rfl, rfl⟩ | ⟨cert, hc, rfl, hmax⟩
  · refine .pure' _ fun s hs => ⟨⟨.inl rfl, ?_⟩, hs⟩
    rintro x (rfl | hx)
    · exact Nat.zero_le _
    · obtain ⟨cert, ha, hp, -⟩ := hx.exists hfc
      exact absurd ((hcs.2.2 cert).mpr ⟨ha, hp⟩) (by simp)
  · refine .pure' _ fun s hs => ⟨?_, hs⟩
    rw [Nat.zero_max]
    refine ⟨.inr ((hw cert hc).worth hfc ((hcs.2.2 cert).mp hc).1 ((hcs.2.2 cert).mp hc).2), ?_⟩
    rintro x (rfl | hx)
    · exact Nat.zero_le _
    · obtain ⟨cert', ha, hp, rfl⟩ := hx.exists hfc
      exact hmax cert' ((hcs.2.2 cert').mpr ⟨ha, hp⟩)

omit c in
/-- `set_root`. -/
theorem setRoot_tri {w : Spec.World} (ht : look.TakesRoots (σ := σ) faulty) (k : PublicKey) (n : Nat) :
    Tri faulty (look.At w) (TrustGraph.setRoot (S := S) k n) (fun _ => look.At (w.setRoot k n)) (look.At w) := by
  refine Writes.tri fun s hs => ?_
  have h := ht s hs.1 k (getWeightFactor n) (by unfold getWeightFactor maxWeightFactor; omega)
  have e : (look.world s).setRoot k (16 - getWeightFactor n) = w.setRoot k n := by
    rw [hs.2]
    unfold Spec.World.setRoot getWeightFactor maxWeightFactor
    have : min (16 - (16 - n)) 16 = min n 16 := by omega
    rw [this]
  rw [e] at h
  exact h

/-- `add_trust`, for a trust that verifies. -/
theorem addTrust_tri {w : Spec.World} {n : Nat} (hf : w.Fit n) (hn : n + 16 < 2 ^ 32) (t : Trust) (a : PublicKey) (now : Dur) (hv : t.verify a now = .ok ())
    (ht : look.Takes (σ := σ) faulty (.auth ⟨t, a⟩)) :
    Tri faulty (look.At w) (TrustGraph.addTrust (S := S) t a now)
      (fun y s => ∃ w', w.AddTrust a t now y w' ∧ w'.Fit (n + 1) ∧ look.At w' s) (fun s => look.At w s ∨ look.At (w.collect now) s) := by
  have hfc := hf.collect now
  unfold TrustGraph.addTrust
  refine .bind (Q := fun _ => look.At w) (.lift (a := ()) (by rw [hv]; rfl) fun s hs => hs) fun _ => ?_
  refine .bind (Q := fun y s => (∃ x, (w.collect now).Weight a x ∧ y = if a = t.issuedFor then x else x / 2) ∧ look.At (w.collect now) s) ?_ fun y => .assume ?_
  · unfold TrustGraph.getNextWeight
    refine .bind (c.weight_tri hf hn a now) fun x => .assume fun hx => ?_
    split
    · exact .pure' _ fun s hs => ⟨⟨x, hx, rfl⟩, hs⟩
    · exact .pure' _ fun s hs => ⟨⟨x, hx, rfl⟩, hs⟩
  · rintro ⟨x, hx, hy⟩
    split
    · rename_i h0
      refine .pure' _ fun s hs => ⟨_, ⟨hv, x, hx, ?_, rfl⟩, ?_, ?_⟩
      · rw [← hy, h0]
      · rw [if_pos rfl]; exact hfc.mono (by omega)
      · rw [if_pos rfl]; exact hs
    · rename_i h0
      refine .bind (Q := fun _ => look.At ((w.collect now).update (.auth ⟨t, a⟩)))
        ((Writes.tri fun s hs => by rw [← hs.2]; exact (ht s hs.1).1 _ now rfl).conseq (fun _ h => h) (fun _ _ h => h) fun _ h => .inr h) fun _ => ?_
      refine .pure' _ fun s hs => ⟨_, ⟨hv, x, hx, hy, rfl⟩, ?_, ?_⟩
      · rw [if_neg h0]; exact hfc.update _
      · rw [if_neg h0]; exact hs

end ReadContract

end TG
