/-
C133: only what is stored counts, not how it came there.
-/
import Verif.Props.Machine

namespace TG
variable [Env]

/-- The answers to calls made one after the other. -/
def Spec.answersOf : List Op → Db → List (Outcome TrustGraphError Answer)
  | [], _ => []
  | op :: ops, db => (op.call db).1 :: Spec.answersOf ops (op.call db).2

/-- The two databases hold the same trusts and revocations, and the same roots with the same weight factors. -/
structure Spec.SameContent (db db' : Db) : Prop where
  relations : ∀ r, db.Stored r ↔ db'.Stored r
  roots : ∀ k, db.rootFactor k = db'.rootFactor k

theorem Spec.SameContent.world {db db' : Db} (h : Spec.SameContent db db') : db.world = db'.world := by
  have hr : db.Stored = db'.Stored := funext fun r => propext (h.relations r)
  have hf : db.rootFactor = db'.rootFactor := funext h.roots
  unfold Db.world
  rw [hr, hf]

theorem Spec.SameContent.of_world {db db' : Db} (hh : db.Healthy) (hh' : db'.Healthy) (h : db.world = db'.world) : Spec.SameContent db db' where
  relations r := by
    have h1 := hh.world_relation (a := r.issuedBy) (b := r.issuedFor) (r := r)
    have h2 := hh'.world_relation (a := r.issuedBy) (b := r.issuedFor) (r := r)
    rw [h] at h1
    exact ⟨fun hs => (h2.mp (h1.mpr ⟨hs, rfl, rfl⟩)).1, fun hs => (h1.mp (h2.mpr ⟨hs, rfl, rfl⟩)).1⟩
  roots k := by
    have e : (db.rootFactor k).map (16 - ·) = (db'.rootFactor k).map (16 - ·) := congrFun (congrArg Spec.World.roots h) k
    cases h1 : db.rootFactor k with
    | none => cases h2 : db'.rootFactor k with
      | none => rfl
      | some n => rw [h1, h2] at e; cases e
    | some m => cases h2 : db'.rootFactor k with
      | none => rw [h1, h2] at e; cases e
      | some n =>
        have a := hh.rootFactor_le h1
        have b := hh'.rootFactor_le h2
        rw [h1, h2] at e
        have : 16 - m = 16 - n := Option.some.inj e
        exact congrArg some (by omega)

/-- **C133.**  Two databases that hold the same, however it came there and in whatever order the rows are stored, are indistinguishable for ever: to the same later calls
they give the same answers, except perhaps for the order of certificates of the same length and of revocations, and hold the same afterwards. -/
theorem C133_indistinguishable {db db' : Db} (hr : Reachable db) (hr' : Reachable db') (hf : db.NoFaults) (hf' : db'.NoFaults) (h : Spec.SameContent db db')
    (ops : List Op) (hn : db.relations.length + (ops.flatMap Op.offers).length + 16 < 2 ^ 32) (hn' : db'.relations.length + (ops.flatMap Op.offers).length + 16 < 2 ^ 32) :
    List.Forall₂ Spec.SameAnswer (Spec.answersOf ops db) (Spec.answersOf ops db') ∧ Spec.SameContent (Op.runAll ops db) (Op.runAll ops db') := by
  have hw := h.world
  clear h
  induction ops generalizing db db' with
  | nil => exact ⟨.nil, .of_world hr.healthy hr'.healthy hw⟩
  | cons op ops ih =>
    rw [List.flatMap_cons, List.length_append] at hn hn'
    obtain ⟨l1, s1⟩ := op.refines hr (by omega)
    obtain ⟨l2, s2⟩ := op.refines hr' (by omega)
    rcases s1 with s1 | ⟨hnf, -⟩
    · rcases s2 with s2 | ⟨hnf, -⟩
      · rw [← hw] at s2
        obtain ⟨e, ha⟩ := C99_determined s1 s2
        have := ih (db := (op.call db).2) (db' := (op.call db').2) (op.call_state db ▸ hr.step op) (op.call_state db' ▸ hr'.step op) (op.call_failStop.noFaults hf) (op.call_failStop.noFaults hf')
          (by omega) (by omega) e
        refine ⟨.cons ha this.1, ?_⟩
        have t := this.2
        rw [op.call_state, op.call_state] at t
        exact t
      · exact absurd hf' hnf
    · exact absurd hf hnf

end TG
