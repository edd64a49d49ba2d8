/-
Invariants of reachable databases.
-/
import Verif.Proofs.Effects

namespace TG
open TG.Sqlite
variable [Env]

omit [Env] in
theorem Dur.Whole.trunc_eq {d : Dur} (h : d.Whole) : d.trunc = d := h.eq

@[simp] theorem TrustRelation.trunc_issuedFor (r : TrustRelation) : r.trunc.issuedFor = r.issuedFor := by
  cases r <;> rfl
@[simp] theorem TrustRelation.trunc_issuedBy (r : TrustRelation) : r.trunc.issuedBy = r.issuedBy := by
  cases r <;> rfl
@[simp] theorem TrustRelation.trunc_issuedAt (r : TrustRelation) : r.trunc.issuedAt = r.issuedAt.trunc := by
  cases r <;> rfl
@[simp] theorem TrustRelation.trunc_trunc (r : TrustRelation) : r.trunc.trunc = r.trunc := by
  cases r <;> rfl

theorem TrustRelation.signatureValid_trunc {r : TrustRelation} :
    r.trunc.SignatureValid ↔ r.SignatureValid := by
  cases r <;> exact Iff.rfl

theorem Trust.verify_signatureValid {t : Trust} {by' : PublicKey} {now : Dur} (h : t.verify by' now = .ok ()) :
    (TrustRelation.auth ⟨t, by'⟩).SignatureValid := by
  unfold Trust.verify at h
  split at h
  · cases h
  · exact Outcome.mapErr_eq_ok.mp h

theorem Revocation.verify_signatureValid {r : Revocation} (h : r.verify = .ok ()) :
    (TrustRelation.revocation r).SignatureValid :=
  Outcome.mapErr_eq_ok.mp h

namespace Db
variable {db : Db}

theorem stored_of_row {row : RelRow} (hh : db.Healthy) (h : row ∈ db.relations) :
    ∃ r, db.Stored r ∧ row = toRow r := by
  obtain ⟨r, hw, e⟩ := hh.rows row h
  exact ⟨r, ⟨hw, e ▸ h⟩, e⟩

theorem stored_put {r q : TrustRelation} :
    (db.put r).Stored q ↔
      q = r.trunc ∨ (db.Stored q ∧ ¬ (q.issuedFor = r.issuedFor ∧ q.issuedBy = r.issuedBy)) := by
  unfold Stored put
  simp only [List.mem_append, List.mem_filter, decide_eq_true_eq, List.mem_singleton, toRow_issuedFor,
    toRow_issuedBy, keyText_inj_iff]
  constructor
  · rintro ⟨hw, h | h⟩
    · exact Or.inr ⟨⟨hw, h.1⟩, h.2⟩
    · left
      exact toRow_inj hw r.trunc_whole (h.trans (toRow_trunc r).symm)
  · rintro (rfl | ⟨⟨hw, h⟩, hn⟩)
    · exact ⟨r.trunc_whole, Or.inr (toRow_trunc r)⟩
    · exact ⟨hw, Or.inl ⟨h, hn⟩⟩

theorem Healthy.put (hh : db.Healthy) (r : TrustRelation) : (db.put r).Healthy where
  rows row h := by
    rcases List.mem_append.mp h with h | h
    · exact hh.rows row (List.mem_filter.mp h).1
    · rw [List.mem_singleton] at h
      exact ⟨r.trunc, r.trunc_whole, by rw [toRow_trunc, h]⟩
  unique := by
    refine List.pairwise_append.mpr ⟨hh.unique.filter _, List.pairwise_singleton _ _, ?_⟩
    intro a ha b hb
    rw [List.mem_singleton] at hb
    subst hb
    exact of_decide_eq_true (List.mem_filter.mp ha).2
  roots := hh.roots

theorem Healthy.addRoot (hh : db.Healthy) (pk : PublicKey) {wf : Nat} (hw : wf ≤ 16) :
    (db.addRoot pk wf).Healthy where
  rows := hh.rows
  unique := hh.unique
  roots row h := by
    rcases List.mem_append.mp h with h | h
    · exact hh.roots row h
    · rw [List.mem_singleton] at h
      exact ⟨pk, wf, hw, h⟩

theorem Healthy.faults (hh : db.Healthy) (fs : List Bool) : Healthy { db with faults := fs } where
  rows := hh.rows
  unique := hh.unique
  roots := hh.roots

theorem Healthy.calm (hh : db.Healthy) : db.calm.Healthy := hh.faults []

theorem healthy_init (fs : List Bool) : Healthy ⟨[], [], fs⟩ where
  rows _ h := by cases h
  unique := List.Pairwise.nil
  roots _ h := by cases h

/-- The row of a pair, in a healthy database. -/
theorem Healthy.row?_eq_some (hh : db.Healthy) {a b : PublicKey} {row : RelRow} :
    db.row? a b = some row ↔ ∃ r, db.Stored r ∧ r.issuedFor = a ∧ r.issuedBy = b ∧ row = toRow r := by
  unfold Db.row?
  constructor
  · intro h
    have hm := List.mem_of_find?_eq_some h
    have hp := List.find?_some h
    obtain ⟨r, hs, rfl⟩ := stored_of_row hh hm
    simp only [toRow_issuedFor, toRow_issuedBy, keyText_inj_iff, decide_eq_true_eq] at hp
    exact ⟨r, hs, hp.2, hp.1, rfl⟩
  · rintro ⟨r, hs, rfl, rfl, rfl⟩
    rcases hf : db.relations.find? _ with _ | row
    · rw [List.find?_eq_none] at hf
      exact absurd (hf _ hs.2) (by simp)
    · have hm := List.mem_of_find?_eq_some hf
      have hp := List.find?_some hf
      obtain ⟨r', hs', rfl⟩ := stored_of_row hh hm
      simp only [toRow_issuedFor, toRow_issuedBy, keyText_inj_iff, decide_eq_true_eq] at hp
      rw [hh.stored_unique hs' hs hp.2 hp.1]

theorem Healthy.row?_eq_none (hh : db.Healthy) {a b : PublicKey} :
    db.row? a b = none ↔ ∀ r, db.Stored r → ¬ (r.issuedFor = a ∧ r.issuedBy = b) := by
  constructor
  · intro h r hs ⟨h1, h2⟩
    have := (hh.row?_eq_some (row := toRow r)).mpr ⟨r, hs, h1, h2, rfl⟩
    rw [h] at this; cases this
  · intro h
    rcases e : db.row? a b with _ | row
    · rfl
    · obtain ⟨r, hs, h1, h2, -⟩ := hh.row?_eq_some.mp e
      exact absurd ⟨h1, h2⟩ (h r hs)

/-- `Newer` in terms of stored relations. -/
theorem Healthy.newer_iff (hh : db.Healthy) {r : TrustRelation} :
    db.Newer r ↔ ∀ old, db.Stored old → old.issuedFor = r.issuedFor → old.issuedBy = r.issuedBy →
      old.issuedAt.lt r.issuedAt = true := by
  unfold Newer
  constructor
  · intro h old hs h1 h2
    obtain ⟨old', hp, hl⟩ := h _ (hh.row?_eq_some.mpr ⟨old, hs, h1, h2, rfl⟩)
    rw [parseRelation_toRow, hs.1.trunc_eq] at hp
    cases hp
    exact hl
  · intro h row hrow
    obtain ⟨old, hs, h1, h2, rfl⟩ := hh.row?_eq_some.mp hrow
    exact ⟨old, by rw [parseRelation_toRow, hs.1.trunc_eq], h old hs h1 h2⟩

end Db

omit [Env] in
theorem getWeightFactor_le (n : Nat) : getWeightFactor n ≤ 16 := Nat.sub_le _ _

/-- A predicate on databases closed under the four things the API can do. -/
structure Closed (P : Db → Prop) : Prop where
  faults : ∀ (db : Db) fs, P db → P { db with faults := fs }
  collect : ∀ (db : Db) now, P db → P (db.collect now)
  put : ∀ (db : Db) r, r.SignatureValid → db.Newer r → P db → P (db.put r)
  addRoot : ∀ (db : Db) pk n, P db → P (db.addRoot pk (getWeightFactor n))

theorem Closed.collecting {P : Db → Prop} (h : Closed P) (now : Dur) :
    Collecting (fun s s' => P s → P s') now where
  refl _ hp := hp
  trans _ _ _ h1 h2 hp := h2 (h1 hp)
  faults db fs hp := h.faults db fs hp
  collect db hp := h.collect db now hp

theorem Closed.run {P : Db → Prop} (h : Closed P) (op : Op) (db : Db) (hp : P db) : P (op.run db) := by
  have hq := (h.collecting (Dur.ofSecs 0)).toQuiet
  have hauth : ∀ (t : Trust) (a : PublicKey) (now : Dur), t.verify a now = .ok () →
      ∀ db : Db, db.Newer (.auth ⟨t, a⟩) → P db → P (db.put (.auth ⟨t, a⟩)) :=
    fun t a now hv db hn hp => h.put db _ (Trust.verify_signatureValid hv) hn hp
  cases op with
  | setRoot pk n => exact TrustGraph.setRoot_steps hq pk n (fun db hp => h.addRoot db pk n hp) db hp
  | addTrust t a now =>
    exact TrustGraph.addTrust_steps (h.collecting now) t a (fun hv => hauth t a now hv) db hp
  | add c now =>
    exact TrustGraph.add_steps (h.collecting now) c (fun t a _ hv => hauth t a now hv) db hp
  | revoke r =>
    exact TrustGraph.revoke_steps hq r
      (fun hv db hn hp => h.put db _ (Revocation.verify_signatureValid hv) hn hp) db hp
  | weight pk now => exact TrustGraph.weight_steps (h.collecting now) pk db hp
  | weightFrom pk i now => exact TrustGraph.weightFrom_steps (h.collecting now) pk i db hp
  | getAllCerts pk now => exact TrustGraph.getAllCerts_steps (h.collecting now) pk db hp
  | getAllCertsFrom pk i now => exact TrustGraph.getAllCertsFrom_steps (h.collecting now) pk i db hp
  | getRevocations pk => exact TrustGraph.getRevocations_steps hq pk db hp

theorem Closed.reachable {P : Db → Prop} (h : Closed P) (h0 : P ⟨[], [], []⟩) {db : Db} (hr : Reachable db) :
    P db := by
  induction hr with
  | init => exact h0
  | step op _ ih => exact h.run op _ ih
  | weather fs _ ih => exact h.faults _ fs ih

theorem healthy_closed : Closed Db.Healthy where
  faults _ fs h := h.faults fs
  collect _ now h := h.collect now
  put _ r _ _ h := h.put r
  addRoot _ pk _ h := h.addRoot pk (getWeightFactor_le _)

theorem Reachable.healthy {db : Db} (h : Reachable db) : db.Healthy :=
  healthy_closed.reachable (Db.healthy_init _) h

theorem verified_closed : Closed (fun db => ∀ r, db.Stored r → r.SignatureValid) where
  faults _ _ h := h
  collect _ now h r hs := h r ((Db.stored_collect now).mp hs).1
  put db r hv _ h q hs := by
    rcases Db.stored_put.mp hs with rfl | ⟨hs, _⟩
    · exact TrustRelation.signatureValid_trunc.mpr hv
    · exact h q hs
  addRoot _ _ _ h := h

theorem Reachable.verified {db : Db} (h : Reachable db) : ∀ r, db.Stored r → r.SignatureValid :=
  verified_closed.reachable (fun _ hs => by cases hs.2) h

end TG
