/-
The updates on a healthy database without faults: helper lemmas.
-/
import Verif.Proofs.Weight

namespace TG
open TG.Sqlite
variable [Env]

namespace Db
variable {db : Db}

theorem getRelation_eq_none (hf : db.NoFaults) {a b : PublicKey} (h : db.row? a b = none) :
    Sqlite.getRelation a b db = (.ok none, db) := by
  unfold Sqlite.getRelation
  rw [stmt_noFaults hf]
  unfold row? at h
  rw [h]

theorem getRelation_eq_some (hh : db.Healthy) (hf : db.NoFaults) {r : TrustRelation} (h : db.Stored r) :
    Sqlite.getRelation r.issuedFor r.issuedBy db = (.ok (some r), db) := by
  have hr := hh.row?_eq_some.mpr ⟨r, h, rfl, rfl, rfl⟩
  unfold Sqlite.getRelation
  rw [stmt_noFaults hf]
  unfold row? at hr
  rw [hr]
  dsimp only
  rw [parseRelation_toRow, h.1.trunc_eq]
  rfl

theorem insert_eq (hf : db.NoFaults) (r : TrustRelation) : Sqlite.insert r db = (.ok (), db.put r) := by
  unfold Sqlite.insert
  rw [stmt_noFaults hf]
  rfl

theorem updateRelation_newer (hh : db.Healthy) (hf : db.NoFaults) {r : TrustRelation} (h : db.Newer r) :
    Sqlite.updateRelation r db = (.ok (), db.put r) := by
  rw [hh.newer_iff] at h
  unfold Sqlite.updateRelation
  rcases hrow : db.row? r.issuedFor r.issuedBy with _ | row
  · rw [M.bind_run_ok (getRelation_eq_none hf hrow)]
    exact insert_eq hf r
  · obtain ⟨old, hs, h1, h2, rfl⟩ := hh.row?_eq_some.mp hrow
    rw [← h1, ← h2, M.bind_run_ok (getRelation_eq_some hh hf hs)]
    have hl := h old hs h1 h2
    cases old with
    | auth a =>
      dsimp only
      refine (congrFun (if_pos hl) db).trans ?_
      exact insert_eq hf r
    | revocation a =>
      dsimp only
      refine (congrFun (if_pos hl) db).trans ?_
      exact insert_eq hf r

theorem updateRelation_stale (hh : db.Healthy) (hf : db.NoFaults) {r : TrustRelation} (h : ¬ db.Newer r) :
    Sqlite.updateRelation r db = (.ok (), db) := by
  rw [hh.newer_iff] at h
  push Not at h
  obtain ⟨old, hs, h1, h2, hl⟩ := h
  unfold Sqlite.updateRelation
  rw [← h1, ← h2, M.bind_run_ok (getRelation_eq_some hh hf hs)]
  cases old with
  | auth a =>
    dsimp only
    refine (congrFun (if_neg hl) db).trans ?_
    rfl
  | revocation a =>
    dsimp only
    refine (congrFun (if_neg hl) db).trans ?_
    rfl

open Classical in
/-- The tables after an update. -/
noncomputable def update (db : Db) (r : TrustRelation) : Db := if db.Newer r then db.put r else db

theorem updateRelation_eq (hh : db.Healthy) (hf : db.NoFaults) (r : TrustRelation) :
    Sqlite.updateRelation r db = (.ok (), db.update r) := by
  unfold update
  split
  · exact updateRelation_newer hh hf ‹_›
  · exact updateRelation_stale hh hf ‹_›

theorem Healthy.update (hh : db.Healthy) (r : TrustRelation) : (db.update r).Healthy := by
  unfold Db.update
  split
  · exact hh.put r
  · exact hh

theorem NoFaults.update (hf : db.NoFaults) (r : TrustRelation) : (db.update r).NoFaults := by
  unfold Db.update
  split <;> exact hf

@[simp] theorem update_roots (r : TrustRelation) : (db.update r).roots = db.roots := by
  unfold Db.update
  split <;> rfl

omit [Env] in
theorem collect_length_le (db : Db) (now : Dur) : (db.collect now).relations.length ≤ db.relations.length :=
  List.length_filter_le _ _

theorem revoke_eq (hh : db.Healthy) (hf : db.NoFaults) {r : Revocation} (hv : r.verify = .ok ()) :
    TrustGraph.revoke r db = (.ok (), db.update (.revocation r)) := by
  unfold TrustGraph.revoke
  rw [hv]
  rw [Outcome.mapErr_ok, M.bind_run_ok (M.lift_run _ _)]
  exact Search.storage_ok (updateRelation_eq hh hf _)

/-- `add_trust` of a verified trust. -/
theorem addTrust_eq (hh : db.Healthy) (hf : db.NoFaults) {t : Trust} {by' : PublicKey} {now : Dur} {w : Nat}
    (hv : t.verify by' now = .ok ()) (hw : TrustGraph.weight by' now db = (.ok w, db.collect now)) :
    TrustGraph.addTrust t by' now db =
      (.ok (if by' = t.issuedFor then w else w / 2),
        if (if by' = t.issuedFor then w else w / 2) = 0 then db.collect now
        else (db.collect now).update (.auth ⟨t, by'⟩)) := by
  have hnext : TrustGraph.getNextWeight by' t.issuedFor now db
      = (.ok (if by' = t.issuedFor then w else w / 2), db.collect now) := by
    unfold TrustGraph.getNextWeight
    rw [M.bind_run_ok hw]
    split <;> rfl
  unfold TrustGraph.addTrust
  rw [hv, Outcome.mapErr_ok, M.bind_run_ok (M.lift_run _ _), M.bind_run_ok hnext]
  generalize (if by' = t.issuedFor then w else w / 2) = n
  split
  · rename_i h
    rw [h]
    rfl
  · have : TrustGraph.storage (Storage.updateAuth ⟨t, by'⟩ now) (db.collect now)
        = (.ok (), (db.collect now).update (.auth ⟨t, by'⟩)) :=
      Search.storage_ok (updateRelation_eq (hh.collect now) (hf.collect now) _)
    rw [M.bind_run_ok this]
    rfl

end Db
end TG
