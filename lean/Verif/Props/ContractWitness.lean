/-
C102: a storage in memory, different from the one of the service, that keeps to the contract, and a run over it.
-/
import Verif.Props.ContractSqlite
import Verif.Spec.Toy

namespace TG
variable [Env]

/-- Relations and roots in memory, newest first.  Not part of the project. -/
structure Memory where
  relations : List TrustRelation
  roots : List (PublicKey × Nat)

namespace Memory

/-- The relation of a pair of keys. -/
def find (m : Memory) (a b : PublicKey) : Option TrustRelation :=
  m.relations.find? (fun r => decide (r.issuedBy = a ∧ r.issuedFor = b))

/-- Keep a relation if it is newer. -/
def put (r : TrustRelation) : M Memory Empty Unit := fun m =>
  if (m.find r.issuedBy r.issuedFor).all (fun q => decide (q.issuedAt.total < r.issuedAt.total)) = true then
    (.ok (), { m with relations := r.trunc :: m.relations.filter (fun q => ¬ (q.issuedBy = r.issuedBy ∧ q.issuedFor = r.issuedFor)) })
  else (.ok (), m)

def authOf (k : PublicKey) : TrustRelation → Option Auth
  | .auth a => if a.trust.issuedFor = k then some a else none
  | .revocation _ => none

def revOf (k : PublicKey) : TrustRelation → Option Revocation
  | .auth _ => none
  | .revocation r => if r.pk = k then some r else none

instance : Storage Memory Empty where
  getRelation a b := fun m => (.ok (m.find b a), m)
  getAuthorizations k := fun m => (.ok (m.relations.filterMap (authOf k)), m)
  getRevocations k := fun m => (.ok (m.relations.filterMap (revOf k)), m)
  insert r := fun m => (.ok (), { m with relations := r :: m.relations })
  getRootWeightFactor k := fun m => (.ok (m.roots.lookup k), m)
  setRootWeightFactor k f := fun m => (.ok (), if (m.roots.lookup k).isSome then m else { m with roots := (k, f) :: m.roots })
  rootKeys := fun m => (.ok (m.roots.map (·.1)), m)
  revoke r := put (.revocation r)
  updateAuth a _ := put (.auth a)
  removeExpired now := fun m => (.ok (), { m with relations := m.relations.filter (fun r =>
    match r with
    | .auth a => decide (asI64 now.secs < asI64 a.trust.expiresAt.secs)
    | .revocation _ => true) })
  ghostBound m := m.relations.length

/-- How to look at it. -/
def look : Look Memory where
  Ok m := m.relations.Pairwise (fun r q => ¬ (r.issuedBy = q.issuedBy ∧ r.issuedFor = q.issuedFor)) ∧ ∀ p ∈ m.roots, p.2 ≤ 16
  world m := { roots := fun k => (m.roots.lookup k).map (16 - ·), relation := m.find }
  auths m k := m.relations.filterMap (authOf k)
  revs m k := m.relations.filterMap (revOf k)
  roots m := m.roots.map (·.1)

theorem find_iff {m : Memory} (h : look.Ok m) {a b : PublicKey} {r : TrustRelation} :
    m.find a b = some r ↔ r ∈ m.relations ∧ r.issuedBy = a ∧ r.issuedFor = b := by
  obtain ⟨h, -⟩ := h
  obtain ⟨l, roots⟩ := m
  unfold find
  dsimp only at h ⊢
  constructor
  · intro hf
    exact ⟨List.mem_of_find?_eq_some hf, by simpa using List.find?_some hf⟩
  · rintro ⟨hm, rfl, rfl⟩
    induction l with
    | nil => cases hm
    | cons q l ih =>
      rw [List.pairwise_cons] at h
      by_cases hq : q.issuedBy = r.issuedBy ∧ q.issuedFor = r.issuedFor
      · rw [List.find?_cons_of_pos (by simpa using hq)]
        rcases List.mem_cons.mp hm with rfl | hm
        · rfl
        · exact absurd hq (h.1 r hm)
      · rw [List.find?_cons_of_neg (by simpa using hq)]
        rcases List.mem_cons.mp hm with rfl | hm
        · exact absurd ⟨rfl, rfl⟩ hq
        · exact ih h.2 hm

theorem lookup_le {m : Memory} (h : look.Ok m) {k : PublicKey} {f : Nat} (hf : m.roots.lookup k = some f) : f ≤ 16 := by
  obtain ⟨l1, l2, e, -⟩ := List.lookup_eq_some_iff.mp hf
  exact h.2 (k, f) (by rw [e]; simp)

theorem put_ok {m : Memory} (h : look.Ok m) (r : TrustRelation) : look.Writes False m (put r) ((look.world m).update r) := by
  have hc : (m.find r.issuedBy r.issuedFor).all (fun q => decide (q.issuedAt.total < r.issuedAt.total)) = true ↔
      ∀ q, (look.world m).relation r.issuedBy r.issuedFor = some q → q.issuedAt.total < r.issuedAt.total := by
    simp only [Option.all_eq_true, decide_eq_true_eq]
    rfl
  have hok : look.Ok (put r m).2 := by
    unfold put
    split
    · refine ⟨?_, h.2⟩
      rw [List.pairwise_cons]
      refine ⟨fun q hq => ?_, h.1.filter _⟩
      have := (List.mem_filter.mp hq).2
      rw [r.trunc_issuedBy, r.trunc_issuedFor]
      intro e
      simp [e.1, e.2] at this
    · exact h
  refine ⟨(put r m).2, hok, .inl ⟨?_, ?_⟩⟩
  · unfold put; split <;> rfl
  · refine Spec.World.ext' (fun k => ?_) fun a b q => ?_
    · unfold put; split <;> rfl
    · show (put r m).2.find a b = some q ↔ _
      rw [find_iff hok]
      unfold Spec.World.update put
      dsimp only
      split
      · rename_i hn
        split
        · rename_i hp
          obtain ⟨rfl, rfl, -⟩ := hp
          simp only [List.mem_cons, List.mem_filter, decide_eq_true_eq, Option.some.injEq]
          constructor
          · rintro ⟨rfl | ⟨-, hne⟩, h1, h2⟩
            · rfl
            · exact absurd ⟨h1, h2⟩ hne
          · rintro rfl
            exact ⟨.inl rfl, r.trunc_issuedBy, r.trunc_issuedFor⟩
        · rename_i hp
          rw [show (look.world m).relation a b = m.find a b from rfl, find_iff h]
          simp only [List.mem_cons, List.mem_filter, decide_eq_true_eq]
          constructor
          · rintro ⟨rfl | ⟨h1, hne⟩, rfl, rfl⟩
            · rw [r.trunc_issuedBy, r.trunc_issuedFor] at hp
              exact absurd ⟨rfl, rfl, hc.mp hn⟩ hp
            · exact ⟨h1, rfl, rfl⟩
          · rintro ⟨h1, rfl, rfl⟩
            refine ⟨.inr ⟨h1, fun e => hp ⟨e.1, e.2, ?_⟩⟩, rfl, rfl⟩
            rw [e.1, e.2]
            exact hc.mp hn
      · rename_i hn
        rw [if_neg, show (look.world m).relation a b = m.find a b from rfl, find_iff h]
        rintro ⟨rfl, rfl, h⟩
        exact hn (hc.mpr h)

theorem reads_ok {m : Memory} (h : look.Ok m) {α : Type} {x : M Memory Empty α} {a : α} (hx : x m = (.ok a, m)) : look.Reads False m x a :=
  ⟨m, Look.Same.refl h, .inl hx⟩

/-- The storage in memory keeps to the contract. -/
theorem contract : Contract look False where
  auths_nodup m h k := by
    refine nodup_filterMap (h.1.imp ?_) ?_
    · rintro r q hn rfl
      exact hn ⟨rfl, rfl⟩
    · intro r _ q _ x hr hq
      cases r <;> cases q <;> simp_all [authOf]
  mem_auths m h k a := by
    show a ∈ m.relations.filterMap (authOf k) ↔ m.find _ _ = _
    rw [List.mem_filterMap, find_iff h]
    constructor
    · rintro ⟨r, hr, e⟩
      cases r with
      | auth b =>
        simp only [authOf] at e
        split at e
        · cases e; exact ⟨hr, rfl, by assumption⟩
        · cases e
      | revocation b => cases e
    · rintro ⟨hr, -, e⟩
      exact ⟨_, hr, if_pos e⟩
  revs_nodup m h k := by
    refine nodup_filterMap (h.1.imp ?_) ?_
    · rintro r q hn rfl
      exact hn ⟨rfl, rfl⟩
    · intro r _ q _ x hr hq
      cases r <;> cases q <;> simp_all [revOf]
  mem_revs m h k a := by
    show a ∈ m.relations.filterMap (revOf k) ↔ m.find _ _ = _
    rw [List.mem_filterMap, find_iff h]
    constructor
    · rintro ⟨r, hr, e⟩
      cases r with
      | revocation b =>
        simp only [revOf] at e
        split at e
        · cases e; exact ⟨hr, rfl, by assumption⟩
        · cases e
      | auth b => cases e
    · rintro ⟨hr, -, e⟩
      exact ⟨_, hr, if_pos e⟩
  mem_roots m h k := by
    show k ∈ m.roots.map (·.1) ↔ (Option.map _ (m.roots.lookup k)).isSome
    rw [Option.isSome_map]
    generalize m.roots = l
    induction l with
    | nil => simp
    | cons p l ih =>
      obtain ⟨a, f⟩ := p
      rw [List.map_cons, List.mem_cons, List.lookup_cons, ih]
      by_cases e : k = a
      · subst e; simp
      · rw [beq_eq_false_iff_ne.mpr e]; simp [e]
  getAuthorizations m h k := reads_ok h rfl
  getRevocations m h k := reads_ok h rfl
  rootKeys m h := reads_ok h rfl
  getRootWeightFactor m h k := by
    refine reads_ok h ?_
    show (Outcome.ok (m.roots.lookup k), m) = (.ok (Option.map _ (Option.map _ (m.roots.lookup k))), m)
    rcases hl : m.roots.lookup k with _ | f
    · rfl
    · have := lookup_le h hl
      simp only [Option.map_some]
      rw [show 16 - (16 - f) = f by omega]
  setRootWeightFactor m h k f hf := by
    refine ⟨if (m.roots.lookup k).isSome then m else { m with roots := (k, f) :: m.roots }, ?_, .inl ⟨rfl, ?_⟩⟩
    · split
      · exact h
      · refine ⟨h.1, fun p hp => ?_⟩
        rcases List.mem_cons.mp hp with rfl | hp
        · exact hf
        · exact h.2 p hp
    · split
      · rename_i hs
        refine Spec.World.ext' (fun a => ?_) fun a b q => Iff.rfl
        unfold Spec.World.setRoot
        dsimp only
        rw [if_neg]
        rintro ⟨rfl, e⟩
        change Option.map _ (m.roots.lookup a) = none at e
        rw [Option.map_eq_none_iff] at e
        rw [e] at hs
        cases hs
      · rename_i hs
        refine Spec.World.ext' (fun a => ?_) fun a b q => Iff.rfl
        unfold Spec.World.setRoot
        show Option.map _ (((k, f) :: m.roots).lookup a) = if a = k ∧ Option.map _ (m.roots.lookup a) = none then _ else Option.map _ (m.roots.lookup a)
        rw [List.lookup_cons]
        by_cases e : a = k
        · subst e
          have hn : m.roots.lookup a = none := Option.not_isSome_iff_eq_none.mp hs
          rw [hn]
          simp
        · simp [e, beq_eq_false_iff_ne.mpr e]
  updateAuth m h a now := put_ok h _
  revoke m h r := put_ok h _
  removeExpired m h now := by
    have hok : look.Ok ((Storage.removeExpired now : M Memory Empty Unit) m).2 := ⟨h.1.filter _, h.2⟩
    refine ⟨_, hok, .inl ⟨rfl, ?_⟩⟩
    refine Spec.World.ext' (fun a => rfl) fun a b q => ?_
    rw [Spec.World.collect_relation]
    show find _ a b = some q ↔ m.find a b = some q ∧ _
    rw [find_iff hok, find_iff h]
    show q ∈ m.relations.filter _ ∧ _ ↔ _
    rw [List.mem_filter]
    cases q with
    | auth x =>
      simp only [decide_eq_true_eq, TrustRelation.auth.injEq, forall_eq']
      exact ⟨fun ⟨⟨h1, h2⟩, h3⟩ => ⟨⟨h1, h3⟩, h2⟩, fun ⟨⟨h1, h3⟩, h2⟩ => ⟨⟨h1, h2⟩, h3⟩⟩
    | revocation x => simp
  ghostBound m h := ⟨m.relations, le_refl _, fun a b r hr => ((find_iff h).mp hr).1⟩

end Memory

end TG

namespace TG.ContractDemo
open TG.Toy
set_option maxRecDepth 100000

/-- Make the calls one after the other. -/
def answers : List Op → Memory → List (Op × Outcome TrustGraphError Answer)
  | [], _ => []
  | op :: ops, m => (op, (op.callIn m).1) :: answers ops (op.callIn m).2

def after : List Op → Memory → Memory
  | [], m => m
  | op :: ops, m => after ops (op.callIn m).2

theorem run {tr : List (Op × Outcome TrustGraphError Answer)} {m : Memory} (h : Memory.look.Trace tr m) (ops : List Op) :
    Memory.look.Trace (tr ++ answers ops m) (after ops m) := by
  induction ops generalizing tr m with
  | nil => rw [answers, List.append_nil]; exact h
  | cons op ops ih =>
    have := ih (h.step op)
    rw [List.append_assoc] at this
    exact this

/-- Root 1 trusts 2 and 3, which both trust 4; then 1 revokes 2. -/
def ops : List Op :=
  [.setRoot (pk 1) 10, .add ⟨[trust 1 1 1000 1, trust 1 2 1000 1, trust 2 4 1000 1]⟩ (s 10), .add ⟨[trust 1 1 1000 1, trust 1 3 1000 1, trust 3 4 1000 1]⟩ (s 10),
   .getAllCerts (pk 4) (s 10), .weight (pk 4) (s 10), .revoke (revocation 1 2 5), .weight (pk 2) (s 10), .weight (pk 4) (s 10), .getRevocations (pk 2)]

/-- The answers; the service's storage lists the two certificates in the other order. -/
theorem answers_eq : (answers ops ⟨[], []⟩).map (·.2) =
    [.ok .unit, .ok .unit, .ok .unit, .ok (.certs [⟨[trust 1 1 1000 1, trust 1 3 1000 1, trust 3 4 1000 1]⟩, ⟨[trust 1 1 1000 1, trust 1 2 1000 1, trust 2 4 1000 1]⟩]),
     .ok (.weight 256), .ok .unit, .ok (.weight 0), .ok (.weight 256), .ok (.revocations [revocation 1 2 5])] ∧
    ((Op.getAllCerts (pk 4) (s 10)).call (((ops.take 3).foldl (fun db op => (op.call db).2) ⟨[], [], []⟩))).1 =
      .ok (.certs [⟨[trust 1 1 1000 1, trust 1 2 1000 1, trust 2 4 1000 1]⟩, ⟨[trust 1 1 1000 1, trust 1 3 1000 1, trust 3 4 1000 1]⟩]) := by decide +kernel

theorem start : Memory.look.Trace [] ⟨[], []⟩ := by
  refine .start ⟨List.Pairwise.nil, fun p h => by cases h⟩ (Spec.World.ext' (fun k => rfl) fun a b r => ?_)
  constructor <;> intro h <;> cases h

/-- C102: the run over the storage in memory is one of the machine. -/
example : Spec.World.Run False ([] ++ answers ops ⟨[], []⟩) (Memory.look.world (after ops ⟨[], []⟩)) :=
  C102_any_storage Memory.contract (run start ops) (by decide +kernel)

end TG.ContractDemo
