/-
The database as a state of the reference machine: helper lemmas.
-/
import Verif.Spec.Machine
import Verif.Props.Relations
import Verif.Proofs.NoTrap

namespace TG
open TG.Sqlite
variable [Env]

theorem Spec.World.ext' {w w' : Spec.World} (h1 : ∀ k, w.roots k = w'.roots k)
    (h2 : ∀ a b r, w.relation a b = some r ↔ w'.relation a b = some r) : w = w' := by
  cases w; cases w'
  congr 1
  · exact funext h1
  · funext a b
    exact Option.ext fun r => h2 a b r

theorem Spec.World.collect_relation {w : Spec.World} {now : Dur} {a b : PublicKey} {r : TrustRelation} :
    (w.collect now).relation a b = some r ↔ w.relation a b = some r ∧ ∀ x, r = .auth x → Spec.Live x.trust now := by
  unfold Spec.World.collect
  dsimp only
  rcases h : w.relation a b with _ | (x | x)
  · simp
  · dsimp only
    split
    · rename_i hl
      simp only [Option.some.injEq]
      refine ⟨fun e => ⟨e, fun y hy => ?_⟩, fun e => e.1⟩
      subst e; cases hy; exact hl
    · rename_i hl
      refine ⟨(fun e => by cases e), ?_⟩
      rintro ⟨e, hl'⟩
      cases e
      exact absurd (hl' x rfl) hl
  · dsimp only
    refine ⟨fun e => ⟨e, fun y hy => ?_⟩, fun e => e.1⟩
    cases e; cases hy

namespace Db
variable {db : Db}

open Classical in
/-- What the tables say. -/
noncomputable def world (db : Db) : Spec.World where
  roots k := (db.rootFactor k).map (16 - ·)
  relation a b := if h : ∃ r, db.Stored r ∧ r.issuedBy = a ∧ r.issuedFor = b then some h.choose else none

theorem Healthy.world_relation (hh : db.Healthy) {a b : PublicKey} {r : TrustRelation} :
    db.world.relation a b = some r ↔ db.Stored r ∧ r.issuedBy = a ∧ r.issuedFor = b := by
  unfold world
  dsimp only
  split
  · rename_i h
    have hc := h.choose_spec
    constructor
    · intro e
      cases e
      exact hc
    · rintro ⟨h1, h2, h3⟩
      rw [hh.stored_unique hc.1 h1 (hc.2.2.trans h3.symm) (hc.2.1.trans h2.symm)]
  · rename_i h
    constructor
    · intro e; cases e
    · intro e; exact absurd ⟨r, e⟩ h

theorem world_calm (db : Db) : db.calm.world = db.world := rfl

theorem world_init : (⟨[], [], []⟩ : Db).world = Spec.World.empty := by
  refine Spec.World.ext' (fun k => rfl) fun a b r => ?_
  rw [(healthy_init []).world_relation]
  constructor
  · rintro ⟨⟨-, h⟩, -⟩; cases h
  · intro h; cases h

theorem Healthy.world_collect (hh : db.Healthy) (now : Dur) : (db.collect now).world = db.world.collect now := by
  refine Spec.World.ext' (fun k => rfl) fun a b r => ?_
  rw [(hh.collect now).world_relation, Spec.World.collect_relation, hh.world_relation, stored_collect]
  tauto

theorem Healthy.world_update (hh : db.Healthy) (r : TrustRelation) : (db.update r).world = db.world.update r := by
  refine Spec.World.ext' (fun k => ?_) fun a b q => ?_
  · show (Option.map _ ((db.update r).rootFactor k)) = Option.map _ (db.rootFactor k)
    rw [rootFactor_congr (update_roots r)]
  · rw [(hh.update r).world_relation]
    have hnew : db.Newer r ↔ ∀ q, db.world.relation r.issuedBy r.issuedFor = some q → q.issuedAt.total < r.issuedAt.total := by
      rw [hh.newer_iff]
      constructor
      · intro h q hq
        obtain ⟨h1, h2, h3⟩ := hh.world_relation.mp hq
        exact Dur.lt_iff.mp (h q h1 h3 h2)
      · intro h q h1 h2 h3
        exact Dur.lt_iff.mpr (h q (hh.world_relation.mpr ⟨h1, h3, h2⟩))
    unfold Spec.World.update Db.update
    dsimp only
    by_cases hn : db.Newer r
    · rw [if_pos hn, stored_put]
      by_cases hp : a = r.issuedBy ∧ b = r.issuedFor
      · obtain ⟨rfl, rfl⟩ := hp
        rw [if_pos ⟨rfl, rfl, hnew.mp hn⟩]
        constructor
        · rintro ⟨rfl | ⟨h, hne⟩, h1, h2⟩
          · rfl
          · exact absurd ⟨h2, h1⟩ hne
        · intro e
          cases e
          exact ⟨.inl rfl, r.trunc_issuedBy, r.trunc_issuedFor⟩
      · rw [if_neg fun h => hp ⟨h.1, h.2.1⟩, hh.world_relation]
        constructor
        · rintro ⟨rfl | ⟨h, hne⟩, rfl, rfl⟩
          · exact absurd ⟨r.trunc_issuedBy, r.trunc_issuedFor⟩ hp
          · exact ⟨h, rfl, rfl⟩
        · rintro ⟨h, rfl, rfl⟩
          exact ⟨.inr ⟨h, fun e => hp ⟨e.2, e.1⟩⟩, rfl, rfl⟩
    · rw [if_neg hn]
      rw [if_neg, hh.world_relation]
      rintro ⟨rfl, rfl, h⟩
      exact hn (hnew.mpr h)

theorem rootFactor_addRoot (k a : PublicKey) (f : Nat) :
    (db.addRoot k f).rootFactor a = if a = k ∧ db.rootFactor a = none then some f else db.rootFactor a := by
  unfold rootFactor
  show Option.map _ ((db.roots ++ [(⟨keyText k, (f : Int)⟩ : RootRow)]).find? _) = _
  rw [List.find?_append]
  generalize db.roots.find? (fun r => decide (r.publicKey = keyText a)) = o
  rcases o with _ | row
  · by_cases e : a = k
    · subst e
      simp
    · have : ¬ keyText k = keyText a := fun h => e (keyText_inj_iff.mp h).symm
      simp [this, e]
  · simp

theorem world_addRoot (k : PublicKey) (n : Nat) : (db.addRoot k (getWeightFactor n)).world = db.world.setRoot k n := by
  refine Spec.World.ext' (fun a => ?_) fun a b r => Iff.rfl
  unfold Spec.World.setRoot
  show Option.map _ ((db.addRoot k (getWeightFactor n)).rootFactor a) = if a = k ∧ Option.map _ (db.rootFactor a) = none then _ else Option.map _ (db.rootFactor a)
  rw [rootFactor_addRoot]
  simp only [Option.map_eq_none_iff]
  split
  · show some (16 - (16 - n)) = some (min n 16)
    congr 1
    omega
  · rfl

theorem Healthy.snapshot_eq (hh : db.Healthy) (now : Dur) : db.snapshot now = (db.world.collect now).graph := by
  unfold Db.snapshot Spec.World.graph
  congr 1
  · funext a t
    apply propext
    rw [Spec.World.collect_relation, hh.world_relation]
    constructor
    · rintro ⟨h, hl⟩
      exact ⟨⟨h, rfl, rfl⟩, fun x hx => by cases hx; exact hl⟩
    · rintro ⟨⟨h, -⟩, hl⟩
      exact ⟨h, hl _ rfl⟩
  · funext a b
    apply propext
    constructor
    · rintro ⟨r, h, rfl, rfl⟩
      exact ⟨r, Spec.World.collect_relation.mpr ⟨hh.world_relation.mpr ⟨h, rfl, rfl⟩, fun x hx => by cases hx⟩⟩
    · rintro ⟨r, h⟩
      obtain ⟨h1, h2, h3⟩ := hh.world_relation.mp (Spec.World.collect_relation.mp h).1
      exact ⟨r, h1, h2, h3⟩
  · funext k
    apply propext
    rw [← rootFactor_isSome]
    show _ ↔ (Option.map _ (db.rootFactor k)).isSome = true
    rw [Option.isSome_map]

/-- The worth of a certificate in terms of the maximum chain length of its root. -/
theorem Healthy.worth_iff (hh : db.Healthy) (now : Dur) (k : PublicKey) (p : Certificate → Prop) (x : Nat) :
    (db.world.collect now).Worth k p x ↔ ∃ c, Spec.Admissible (db.snapshot now) k c ∧ p c ∧ x = db.certWeight c := by
  rw [hh.snapshot_eq]
  constructor
  · rintro ⟨root, rest, n, ha, hp, hn, rfl⟩
    refine ⟨_, ha, hp, ?_⟩
    change (db.rootFactor root.issuedFor).map (16 - ·) = some n at hn
    obtain ⟨f, hf, rfl⟩ := Option.map_eq_some_iff.mp hn
    simp only [certWeight, hf]
    rw [Nat.sub_sub]
  · rintro ⟨⟨ts⟩, ha, hp, rfl⟩
    rcases ts with _ | ⟨root, rest⟩
    · exact absurd ha.linked.long (by simp)
    · have hr := (ha.linked.root root rfl).1
      obtain ⟨n, hn⟩ := Option.isSome_iff_exists.mp hr
      have hn' := hn
      change (db.rootFactor root.issuedFor).map (16 - ·) = some n at hn
      obtain ⟨f, hf, rfl⟩ := Option.map_eq_some_iff.mp hn
      refine ⟨root, rest, _, ha, hp, hn', ?_⟩
      simp only [certWeight, hf]
      rw [Nat.sub_sub]

theorem Healthy.weight_iff (hh : db.Healthy) (now : Dur) (k : PublicKey) (x : Nat) :
    (db.world.collect now).Weight k x ↔ IsGreatest (Spec.weights db k now) x := by
  unfold Spec.World.Weight
  suffices h : (fun y => y = 0 ∨ (∃ n, (db.world.collect now).roots k = some n ∧ y = 2 ^ n) ∨
      (db.world.collect now).Worth k (fun _ => True) y) = Spec.weights db k now by rw [h]
  funext y
  apply propext
  unfold Spec.weights
  rw [hh.worth_iff]
  refine or_congr Iff.rfl (or_congr ?_ (by simp))
  show (∃ n, (db.rootFactor k).map (16 - ·) = some n ∧ _) ↔ _
  constructor
  · rintro ⟨n, hn, rfl⟩
    obtain ⟨f, hf, rfl⟩ := Option.map_eq_some_iff.mp hn
    exact ⟨f, hf, rfl⟩
  · rintro ⟨f, hf, rfl⟩
    exact ⟨_, by rw [hf]; rfl, rfl⟩

theorem Healthy.weightFrom_iff (hh : db.Healthy) (now : Dur) (k a : PublicKey) (x : Nat) :
    (db.world.collect now).WeightFrom k a x ↔ IsGreatest (Spec.weightsFrom db k a now) x := by
  unfold Spec.World.WeightFrom
  suffices h : (fun y => y = 0 ∨ (db.world.collect now).Worth k (fun c => ∃ t ∈ c.chain, t.issuedFor = a) y) = Spec.weightsFrom db k a now by
    rw [h]
  funext y
  apply propext
  unfold Spec.weightsFrom
  rw [hh.worth_iff]

end Db

/-! ### States after calls with SQL failures -/

/-- Nothing has happened but garbage collection. -/
def Collected (now : Dur) (db db' : Db) : Prop := db'.calm = db.calm ∨ db'.calm = (db.collect now).calm

omit [Env] in
theorem collected_collecting (now : Dur) : Collecting (Collected now) now where
  refl _ := .inl rfl
  trans a b c h1 h2 := by
    have e : ∀ {x y : Db}, x.calm = y.calm → (x.collect now).calm = (y.collect now).calm := by
      intro x y h
      show (x.calm.collect now) = (y.calm.collect now)
      rw [h]
    rcases h2 with h2 | h2
    · rcases h1 with h1 | h1
      · exact .inl (h2.trans h1)
      · exact .inr (h2.trans h1)
    · right
      rcases h1 with h1 | h1
      · exact h2.trans (e h1)
      · refine h2.trans ((e h1).trans ?_)
        show ((a.collect now).collect now).calm = _
        rw [Db.collect_collect_of_le (Int.le_refl _)]
  faults _ _ := .inl rfl
  collect _ := .inr rfl

theorem Collected.world {now : Dur} {db db' : Db} (hh : db.Healthy) (h : Collected now db db') :
    db'.world = db.world ∨ db'.world = db.world.collect now := by
  rcases h with h | h
  · left; rw [← Db.world_calm, h, Db.world_calm]
  · right; rw [← Db.world_calm, h, Db.world_calm, hh.world_collect]

omit [Env] in
theorem Collected.length {now : Dur} {db db' : Db} (h : Collected now db db') : db'.relations.length ≤ db.relations.length := by
  rcases h with h | h
  · exact le_of_eq (congrArg (fun d => d.relations.length) h)
  · exact le_trans (le_of_eq (congrArg (fun d => d.relations.length) h)) (Db.collect_length_le db now)

omit [Env] in
theorem stmt_err {α : Type} {f : Db → Outcome SqlError α × Db} {db db' : Db} {e : SqlError}
    (h : stmt f db = (.err e, db')) (hf : ∀ d, (f d).1 = .err e → (f d).2.calm = d.calm) : db'.calm = db.calm := by
  unfold stmt at h
  split at h
  · have := hf db (by rw [h])
    rw [h] at this; exact this
  · cases h; rfl
  · rename_i fs _
    have := hf { db with faults := fs } (by rw [h])
    rw [h] at this; exact this

/-- A failed update has no effect. -/
theorem updateRelation_err {r : TrustRelation} {db db' : Db} {e : SqlError} (h : updateRelation r db = (.err e, db')) :
    db'.calm = db.calm := by
  have hread : ∀ {o d}, getRelation r.issuedFor r.issuedBy db = (o, d) → d.calm = db.calm := by
    intro o d h
    have := getRelation_steps (R := fun a b => b.calm = a.calm)
      ⟨fun _ => rfl, fun _ _ _ h1 h2 => h2.trans h1, fun _ _ => rfl⟩ r.issuedFor r.issuedBy db
    rw [h] at this; exact this
  have hins : ∀ {d d' : Db}, Sqlite.insert r d = (.err e, d') → d'.calm = d.calm := by
    intro d d' h
    exact stmt_err h fun d h => by cases h
  unfold updateRelation at h
  rw [M.bind_run] at h
  rcases hg : getRelation r.issuedFor r.issuedBy db with ⟨o, d⟩
  rw [hg] at h
  have h0 := hread hg
  rcases o with o | e' | _ | _
  · dsimp only at h
    rcases o with _ | (x | x)
    · exact (hins h).trans h0
    · dsimp only at h
      split at h
      · exact (hins h).trans h0
      · cases h
    · dsimp only at h
      split at h
      · exact (hins h).trans h0
      · cases h
  · cases h; exact h0
  · cases h
  · cases h

end TG
