/-
C102: the storage of the service keeps to the contract.
-/
import Verif.Props.Contract

namespace TG
open TG.Sqlite
variable [Env]

/-- How to look at the database. -/
noncomputable def Db.look (faulty : Prop) : Look Db where
  Ok db := db.Healthy ∧ (¬ db.NoFaults → faulty)
  world := Db.world
  auths db := db.view.auths
  revs db := db.view.revs
  roots := Db.rootList

namespace Db
variable {db : Db} {faulty : Prop}

theorem Healthy.of_calm (h : db.calm.Healthy) : db.Healthy := ⟨h.rows, h.unique, h.roots⟩

omit [Env] in
/-- A method that would succeed without failing statements does so, or reports the failing statement. -/
theorem method_cases {α : Type} {x : M Db SqlError α} (ht : Transparent IsSqlite x) (hs : FailStop IsSqlite x) {a : α} {d : Db}
    (h : x db.calm = (.ok a, d)) :
    ∃ d', (x db = (.ok a, d') ∧ d'.calm = d.calm ∨ ¬ db.NoFaults ∧ x db = (.err .sqliteError, d')) ∧ (¬ d'.NoFaults → ¬ db.NoFaults) := by
  rcases hx : x db with ⟨o, d'⟩
  have hkeep : ¬ d'.NoFaults → ¬ db.NoFaults := by
    intro hd hf
    apply hd
    rcases hs db with ⟨n, h'⟩ | ⟨n, h', -⟩
    · rw [hx, hf] at h'
      exact (List.append_eq_nil_iff.mp h'.symm).2
    · rw [hf] at h'
      exact absurd (List.append_eq_nil_iff.mp h'.symm).2 (by simp)
  refine ⟨d', ?_, hkeep⟩
  by_cases hf : db.NoFaults
  · rw [hf.calm_eq, hx] at h
    cases h
    exact .inl ⟨rfl, rfl⟩
  · rcases ht db with ⟨e, h1, h2⟩ | ⟨h1, h2⟩
    · rw [hx] at h1
      cases h1
      exact .inr ⟨hf, by rw [show e = .sqliteError from h2]⟩
    · rw [hx, h] at h1 h2
      cases h1
      left
      refine ⟨rfl, ?_⟩
      rw [← show d'.calm = d from h2]
      rfl

theorem same_of_calm {d' : Db} (hh : (look faulty).Ok db) (h : d'.calm = db.calm) (hk : ¬ d'.NoFaults → ¬ db.NoFaults) : (look faulty).Same db d' where
  ok := ⟨.of_calm (by rw [h]; exact hh.1.calm), fun hd => hh.2 (hk hd)⟩
  world := calm_world h
  auths := show d'.calm.view.auths = db.calm.view.auths by rw [h]
  revs := show d'.calm.view.revs = db.calm.view.revs by rw [h]
  roots := show d'.calm.rootList = db.calm.rootList by rw [h]

theorem look_reads {α : Type} {x : M Db SqlError α} (ht : Transparent IsSqlite x) (hs : FailStop IsSqlite x)
    (hq : Steps (fun a b : Db => b.calm = a.calm) x) {a : α} (hh : (look faulty).Ok db) (h : x db.calm = (.ok a, db.calm)) : (look faulty).Reads faulty db x a := by
  obtain ⟨d', hd | ⟨hnf, hd⟩, hk⟩ := method_cases ht hs h
  · exact ⟨d', same_of_calm hh hd.2 hk, .inl hd.1⟩
  · have := hq db
    rw [hd] at this
    exact ⟨d', same_of_calm hh this hk, .inr ⟨hh.2 hnf, _, hd⟩⟩

theorem look_writes {x : M Db SqlError Unit} (ht : Transparent IsSqlite x) (hs : FailStop IsSqlite x)
    (he : ∀ d', x db = (.err .sqliteError, d') → d'.calm = db.calm) {d : Db} {w : Spec.World} (hh : (look faulty).Ok db) (h : x db.calm = (.ok (), d))
    (hd : d.Healthy) (hw : d.world = w) : (look faulty).Writes faulty db x w := by
  obtain ⟨d', hd' | ⟨hnf, hd'⟩, hk⟩ := method_cases ht hs h
  · refine ⟨d', ⟨.of_calm (by rw [hd'.2]; exact hd.calm), fun h => hh.2 (hk h)⟩, .inl ⟨hd'.1, ?_⟩⟩
    rw [← hw]
    exact calm_world hd'.2
  · have := he d' hd'
    exact ⟨d', ⟨.of_calm (by rw [this]; exact hh.1.calm), fun h => hh.2 (hk h)⟩, .inr ⟨hh.2 hnf, ⟨_, hd'⟩, calm_world this⟩⟩

end Db

/-- **C102.**  The SQLite storage keeps to the contract. -/
theorem C102_sqlite (faulty : Prop) : Contract (Db.look faulty) faulty where
  auths_nodup db hs k := (Db.view_lawful hs.1).nodup k
  mem_auths db hs k a := by
    show a ∈ db.view.auths k ↔ db.world.relation _ _ = _
    rw [Db.mem_view_auths hs.1, hs.1.world_relation]
    exact ⟨fun h => ⟨h.1, rfl, h.2⟩, fun h => ⟨h.1, h.2.2⟩⟩
  revs_nodup db hs k := Db.view_revs_nodup hs.1 k
  mem_revs db hs k r := by
    show r ∈ db.view.revs k ↔ db.world.relation _ _ = _
    rw [Db.mem_view_revs hs.1, hs.1.world_relation]
    exact ⟨fun h => ⟨h.1, rfl, h.2⟩, fun h => ⟨h.1, h.2.2⟩⟩
  mem_roots db hs k := by
    show k ∈ db.rootList ↔ (Option.map _ (db.rootFactor k)).isSome
    rw [Db.mem_rootList hs.1, Option.isSome_map, Db.rootFactor_isSome]
  getAuthorizations db hs k := Db.look_reads (getAuthorizations_transparent k) (getAuthorizations_failStop k)
    (getAuthorizations_steps quiet_calm k) hs ((Db.reads hs.1.calm (Db.calm_noFaults db)).auths k)
  getRevocations db hs k := Db.look_reads (getRevocations_transparent k) (getRevocations_failStop k)
    (getRevocations_steps quiet_calm k) hs ((Db.reads hs.1.calm (Db.calm_noFaults db)).revs k)
  rootKeys db hs := Db.look_reads rootKeys_transparent rootKeys_failStop (rootKeys_steps quiet_calm) hs
    (Db.rootKeys_eq hs.1.calm (Db.calm_noFaults db))
  getRootWeightFactor db hs k := by
    refine Db.look_reads (getRootWeightFactor_transparent k) (getRootWeightFactor_failStop k) (getRootWeightFactor_steps quiet_calm k) hs ?_
    rw [Db.getRootWeightFactor_eq hs.1.calm (Db.calm_noFaults db)]
    have : ((Db.look faulty).world db).roots k = (db.rootFactor k).map (16 - ·) := rfl
    rw [this, Option.map_map]
    rcases h : db.rootFactor k with _ | f
    · have h' : db.calm.rootFactor k = none := h
      rw [h']; rfl
    · have h' : db.calm.rootFactor k = some f := h
      have := hs.1.rootFactor_le h
      rw [h']
      show _ = (Outcome.ok (some (16 - (16 - f))), _)
      rw [show 16 - (16 - f) = f by omega]
  setRootWeightFactor db hs k f hf := by
    refine Db.look_writes (setRootWeightFactor_transparent k f) (setRootWeightFactor_failStop k f) (fun d' h => stmt_err h fun d h => by cases h) hs
      (d := db.calm.addRoot k f) ?_ (hs.1.calm.addRoot k hf) ?_
    · show Sqlite.setRootWeightFactor _ _ _ = _
      unfold Sqlite.setRootWeightFactor
      rw [Db.stmt_noFaults (Db.calm_noFaults db)]
      rfl
    · have e : f = getWeightFactor (16 - f) := by unfold getWeightFactor maxWeightFactor; omega
      have := Db.world_addRoot (db := db.calm) k (16 - f)
      rw [← e] at this
      exact this
  updateAuth db hs a now :=
    Db.look_writes (updateRelation_transparent (.auth a)) (updateRelation_failStop (.auth a)) (fun d' h => updateRelation_err h) hs
      (Db.updateRelation_eq hs.1.calm (Db.calm_noFaults db) _) (hs.1.calm.update _) (hs.1.calm.world_update _)
  revoke db hs r :=
    Db.look_writes (updateRelation_transparent (.revocation r)) (updateRelation_failStop (.revocation r)) (fun d' h => updateRelation_err h) hs
      (Db.updateRelation_eq hs.1.calm (Db.calm_noFaults db) _) (hs.1.calm.update _) (hs.1.calm.world_update _)
  removeExpired db hs now :=
    Db.look_writes (removeExpired_transparent now) (removeExpired_failStop now) (fun d' h => stmt_err h fun d h => by cases h) hs
      (Db.removeExpired_eq (Db.calm_noFaults db) now) (hs.1.calm.collect now) (hs.1.calm.world_collect now)
  ghostBound db hs := by
    have h : ∀ row ∈ db.relations, ∃ r : TrustRelation, r.Whole ∧ row = Sqlite.toRow r := hs.1.rows
    have key : ∀ rows : List RelRow, (∀ row ∈ rows, ∃ r : TrustRelation, r.Whole ∧ row = Sqlite.toRow r) →
        ∃ l : List TrustRelation, l.length ≤ rows.length ∧ ∀ r : TrustRelation, r.Whole → Sqlite.toRow r ∈ rows → r ∈ l := by
      intro rows
      induction rows with
      | nil => exact fun _ => ⟨[], le_refl _, fun r _ h => by cases h⟩
      | cons row rows ih =>
        intro h
        obtain ⟨l, hl, hm⟩ := ih fun x hx => h x (List.mem_cons_of_mem _ hx)
        obtain ⟨q, hq, e⟩ := h row (by simp)
        refine ⟨q :: l, by simp [hl], fun r hr hmem => ?_⟩
        rcases List.mem_cons.mp hmem with h' | h'
        · rw [e] at h'
          rw [toRow_inj hr hq h']
          simp
        · exact List.mem_cons_of_mem _ (hm r hr h')
    obtain ⟨l, hl, hm⟩ := key _ h
    refine ⟨l, hl, fun a b r hr => ?_⟩
    obtain ⟨⟨h1, h2⟩, -⟩ := hs.1.world_relation.mp hr
    exact hm r h1 h2

end TG
