/-
Property C99: the library over SQLite refines the reference machine.
-/
import Verif.Proofs.Machine
import Verif.Proofs.FailStop

namespace TG
open TG.Sqlite
variable [Env]

omit [Env] in
/-- A call either meets a failing statement and reports it, or answers and acts as if there were none. -/
theorem Transparent.cases {α : Type} {x : M Db TrustGraphError α} (hx : Transparent IsInternal x) (hs : FailStop IsInternal x) (db : Db) :
    (¬ db.NoFaults ∧ (x db).1 = .err .internalStorageError) ∨ ((x db).1 = (x db.calm).1 ∧ (x db).2.calm = (x db.calm).2) := by
  by_cases hf : db.NoFaults
  · right
    rw [hf.calm_eq]
    refine ⟨rfl, Db.NoFaults.calm_eq ?_⟩
    rcases hs db with ⟨n, h⟩ | ⟨n, h, -⟩
    · rw [hf] at h
      exact (List.append_eq_nil_iff.mp h.symm).2
    · rw [hf] at h
      exact absurd (List.append_eq_nil_iff.mp h.symm).2 (by simp)
  · rcases hx db with ⟨e, h, he⟩ | h
    · exact .inl ⟨hf, by rw [h, he]⟩
    · exact .inr h

omit [Env] in
theorem FailStop.noFaults {α : Type} {x : M Db TrustGraphError α} (hs : FailStop IsInternal x) {db : Db} (hf : db.NoFaults) :
    (x db).2.NoFaults := by
  rcases hs db with ⟨n, h⟩ | ⟨n, h, -⟩
  · rw [hf] at h
    exact (List.append_eq_nil_iff.mp h.symm).2
  · rw [hf] at h
    exact absurd (List.append_eq_nil_iff.mp h.symm).2 (by simp)

theorem Op.call_failStop (op : Op) : FailStop IsInternal op.call := by
  cases op
  case setRoot => exact (TrustGraph.setRoot_failStop _ _).bind fun _ => .pure _
  case addTrust => exact (TrustGraph.addTrust_failStop _ _ _).bind fun _ => .pure _
  case add => exact (TrustGraph.add_failStop _ _).bind fun _ => .pure _
  case revoke => exact (TrustGraph.revoke_failStop _).bind fun _ => .pure _
  case weight => exact (TrustGraph.weight_failStop _ _).bind fun _ => .pure _
  case weightFrom => exact (TrustGraph.weightFrom_failStop _ _ _).bind fun _ => .pure _
  case getAllCerts => exact (TrustGraph.getAllCerts_failStop _ _).bind fun _ => .pure _
  case getAllCertsFrom => exact (TrustGraph.getAllCertsFrom_failStop _ _ _).bind fun _ => .pure _
  case getRevocations => exact (TrustGraph.getRevocations_failStop _).bind fun _ => .pure _

/-- When a statement fails, a trust is not added. -/
theorem addTrust_internal {t : Trust} {a : PublicKey} {now : Dur} {db db' : Db}
    (h : TrustGraph.addTrust t a now db = (.err .internalStorageError, db')) : Collected now db db' := by
  have hc := collected_collecting now
  unfold TrustGraph.addTrust at h
  rw [M.bind_run, M.lift_run] at h
  rcases hv : (t.verify a now).mapErr TrustGraphError.trustVerificationError with u | e | _ | _
  · rw [hv] at h
    dsimp only at h
    rw [M.bind_run] at h
    have hs := TrustGraph.getNextWeight_steps hc a t.issuedFor db
    rcases hg : TrustGraph.getNextWeight a t.issuedFor now db with ⟨o, s⟩
    rw [hg] at h hs
    rcases o with n | e | _ | _
    · dsimp only at h
      split at h
      · cases h
      · rw [M.bind_run] at h
        rcases hu : TrustGraph.storage (Storage.updateAuth ⟨t, a⟩ now) s with ⟨o, s'⟩
        rw [hu] at h
        rcases o with o | e | _ | _
        · cases h
        · cases h
          change (updateRelation (.auth ⟨t, a⟩)).mapErr _ s = _ at hu
          rw [M.mapErr_run] at hu
          rcases hr : updateRelation (.auth ⟨t, a⟩) s with ⟨o, s''⟩
          rw [hr] at hu
          rcases o with o | e | _ | _ <;> cases hu
          exact hc.trans _ _ _ hs (.inl (updateRelation_err hr))
        · cases h
        · cases h
    · cases h; exact hs
    · cases h
    · cases h
  · rw [hv] at h
    cases h
    rcases Trust.verify_cases t a now with h' | ⟨e, h'⟩ <;> rw [h'] at hv <;> cases hv
  · rw [hv] at h; cases h
  · rw [hv] at h; cases h

omit [Env] in
theorem calm_length {db db' : Db} (h : db.calm = db'.calm) : db.relations.length = db'.relations.length :=
  congrArg (fun d => d.relations.length) h

theorem calm_world {db db' : Db} (h : db.calm = db'.calm) : db.world = db'.world := by
  rw [← Db.world_calm, h, Db.world_calm]

/-- What adding one trust does. -/
def AddsAs (db : Db) (t : Trust) (a : PublicKey) (now : Dur) (o : Outcome TrustGraphError Nat) (db' : Db) : Prop :=
  (∃ y, o = .ok y ∧ db.world.AddTrust a t now y db'.world) ∨
  (∃ e, t.verify a now = .err e ∧ o = .err (.trustVerificationError e) ∧ db'.world = db.world) ∨
  (¬ db.NoFaults ∧ o = .err .internalStorageError ∧ (db'.world = db.world ∨ db'.world = db.world.collect now))

theorem addTrust_machine {db : Db} (hh : db.Healthy) (hn : db.relations.length + 16 < 2 ^ 32) (t : Trust) (a : PublicKey) (now : Dur)
    {o : Outcome TrustGraphError Nat} {db' : Db} (h : TrustGraph.addTrust t a now db = (o, db')) :
    db'.relations.length ≤ db.relations.length + 1 ∧ AddsAs db t a now o db' := by
  have hcases := (TrustGraph.addTrust_transparent t a now).cases (TrustGraph.addTrust_failStop t a now) db
  rw [h] at hcases
  rcases hcases with ⟨hf, he⟩ | ⟨ho, hs⟩
  · dsimp only at he
    subst he
    have hcol := addTrust_internal h
    exact ⟨Nat.le_succ_of_le hcol.length, .inr (.inr ⟨hf, rfl, hcol.world hh⟩)⟩
  · dsimp only at ho hs
    rcases Trust.verify_cases t a now with hv | ⟨e, hv⟩
    · obtain ⟨x, hx, hg⟩ := Db.weight_spec hh.calm (Db.calm_noFaults db) hn a now
      rw [Db.addTrust_eq hh.calm (Db.calm_noFaults db) hv hx] at ho hs
      have hg' := (hh.calm.weight_iff now a x).mpr hg
      rw [Db.world_calm] at hg'
      dsimp only at ho hs
      have hl : db'.relations.length = db'.calm.relations.length := rfl
      have hw : db'.world = db'.calm.world := rfl
      have hcl : (db.calm.collect now).relations.length ≤ db.relations.length := Db.collect_length_le db.calm now
      refine ⟨?_, .inl ⟨_, ho, hv, x, hg', rfl, ?_⟩⟩
      · rw [hl, hs]
        generalize (if a = t.issuedFor then x else x / 2) = y
        split
        · omega
        · have := Db.update_length_le (db := db.calm.collect now) (.auth ⟨t, a⟩)
          omega
      · rw [hw, hs]
        have e1 : (db.calm.collect now).world = db.world.collect now := by rw [hh.calm.world_collect, Db.world_calm]
        generalize (if a = t.issuedFor then x else x / 2) = y
        split
        · exact e1
        · rw [(hh.calm.collect now).world_update, e1]
    · have hcalm : TrustGraph.addTrust t a now db.calm = (.err (.trustVerificationError e), db.calm) := by
        unfold TrustGraph.addTrust
        rw [hv]; rfl
      rw [hcalm] at ho hs
      exact ⟨Nat.le_succ_of_le (le_of_eq (calm_length hs)), .inr (.inl ⟨e, hv, ho, (congrArg Db.world hs : db'.calm.world = db.calm.world)⟩)⟩

/-- The answer of a call without result. -/
def unitAnswer : Outcome TrustGraphError Unit → Outcome TrustGraphError Answer
  | .ok _ => .ok .unit
  | .err e => .err e
  | .panic => .panic
  | .diverge => .diverge

/-- What adding trusts one after the other does. -/
theorem addLoop_machine {db : Db} (hr : Reachable db) (now : Dur) (a : PublicKey) (ts : List Trust)
    (hn : db.relations.length + ts.length + 16 < 2 ^ 32) {o : Outcome TrustGraphError Unit} {db' : Db}
    (h : TrustGraph.addLoop now a ts db = (o, db')) :
    db'.relations.length ≤ db.relations.length + ts.length ∧
    (((∃ e, o = .err e) ∨ o = .ok ()) ∧
      (Spec.World.AddChain now db.world a ts (unitAnswer o) db'.world ∨
      (¬ db.NoFaults ∧ o = .err .internalStorageError ∧ Spec.World.BreakChain now db.world a ts db'.world))) := by
  induction ts generalizing db a with
  | nil =>
    cases h
    exact ⟨by omega, .inr rfl, .inl .done⟩
  | cons t ts ih =>
    unfold TrustGraph.addLoop at h
    rw [M.bind_run] at h
    rcases ht : TrustGraph.addTrust t a now db with ⟨o1, db1⟩
    rw [ht] at h
    rw [List.length_cons] at hn
    obtain ⟨hl, hcase⟩ := addTrust_machine hr.healthy (by omega) t a now ht
    have hr1 : Reachable db1 := by
      have := hr.step (.addTrust t a now)
      change Reachable (TrustGraph.addTrust t a now db).2 at this
      rw [ht] at this; exact this
    have hf1 : db.NoFaults → db1.NoFaults := by
      intro hf
      have := (TrustGraph.addTrust_failStop t a now).noFaults hf
      rw [ht] at this; exact this
    rcases hcase with ⟨y, rfl, hadd⟩ | ⟨e, hv, rfl, hw⟩ | ⟨hf, rfl, hw⟩
    · obtain ⟨hl2, hok, hch⟩ := ih hr1 t.issuedFor (by omega) h
      refine ⟨by rw [List.length_cons]; omega, hok, ?_⟩
      rcases hch with hch | ⟨hf, ho, hch⟩
      · exact .inl (.next hadd hch)
      · exact .inr ⟨fun h => hf (hf1 h), ho, .later hadd hch⟩
    · cases h
      refine ⟨by rw [List.length_cons]; omega, .inl ⟨_, rfl⟩, .inl ?_⟩
      rw [hw]
      exact .refused hv
    · cases h
      exact ⟨by rw [List.length_cons]; omega, .inl ⟨_, rfl⟩, .inr ⟨hf, rfl, .here hw⟩⟩

omit [Env] in
/-- A call that succeeds as long as no statement fails. -/
theorem Transparent.answer {α β : Type} {x : M Db TrustGraphError α} (ht : Transparent IsInternal x) (hs : FailStop IsInternal x) {db d : Db} {v : α}
    (f : α → β) (h : x db.calm = (.ok v, d)) :
    (¬ db.NoFaults ∧ x db = (.err .internalStorageError, (x db).2) ∧
      (x >>= fun a => Pure.pure (f a) : M Db TrustGraphError β) db = (.err .internalStorageError, (x db).2)) ∨
    ∃ d', (x >>= fun a => Pure.pure (f a) : M Db TrustGraphError β) db = (.ok (f v), d') ∧ d'.calm = d := by
  rw [M.bind_run]
  rcases hx : x db with ⟨o, d'⟩
  rcases ht.cases hs db with ⟨hf, ho⟩ | ⟨ho, hd⟩
  · rw [hx] at ho
    cases ho
    exact .inl ⟨hf, rfl, rfl⟩
  · rw [hx, h] at ho hd
    cases ho
    exact .inr ⟨d', rfl, hd⟩

omit [Env] in
theorem quiet_calm : Quiet (fun a b : Db => b.calm = a.calm) := ⟨fun _ => rfl, fun _ _ _ h1 h2 => h2.trans h1, fun _ _ => rfl⟩

/-- One call of the library is one step of the machine, or breaks off when a statement fails. -/
theorem Op.refines {db : Db} (hr : Reachable db) (op : Op) (hn : db.relations.length + op.offers.length + 16 < 2 ^ 32) :
    (op.call db).2.relations.length ≤ db.relations.length + op.offers.length ∧
    (db.world.Step op (op.call db).1 (op.call db).2.world ∨
      (¬ db.NoFaults ∧ (op.call db).1 = .err .internalStorageError ∧ db.world.Break op (op.call db).2.world)) := by
  have hh := hr.healthy
  have hc := hh.calm
  have hf := Db.calm_noFaults db
  have hcw : ∀ now, (db.calm.collect now).world = db.world.collect now := fun now => by rw [hc.world_collect, Db.world_calm]
  have hcl : ∀ now, (db.calm.collect now).relations.length ≤ db.relations.length := fun now => Db.collect_length_le db.calm now
  -- a query, given what it answers when no statement fails
  have query : ∀ {α : Type} {x : M Db TrustGraphError α} (_ : Transparent IsInternal x) (_ : FailStop IsInternal x) {v : α} (f : α → Answer) (op : Op)
      (now : Dur) (_ : Steps (Collected now) x) (_ : x db.calm = (.ok v, db.calm.collect now))
      (_ : op.call = (x >>= fun a => pure (f a))) (_ : op.time = some now) (_ : ∀ c now, op ≠ .add c now)
      (_ : db.world.Step op (.ok (f v)) (db.world.collect now)),
      (op.call db).2.relations.length ≤ db.relations.length + op.offers.length ∧
      (db.world.Step op (op.call db).1 (op.call db).2.world ∨
        (¬ db.NoFaults ∧ (op.call db).1 = .err .internalStorageError ∧ db.world.Break op (op.call db).2.world)) := by
    intro α x ht hs v f op now hst hx hop htime hne hstep
    rw [hop]
    rcases ht.answer hs f hx with ⟨hnf, -, h⟩ | ⟨d', h, hd⟩
    · rw [h]
      have hcol := hst db
      refine ⟨Nat.le_add_right_of_le hcol.length, .inr ⟨hnf, rfl, ?_⟩⟩
      rcases Collected.world hh hcol with e | e
      · rw [e]; exact .nothing _ hne
      · rw [e]; exact .collected _ hne htime
    · rw [h]
      have h1 : d'.relations.length = d'.calm.relations.length := rfl
      have h2 : d'.world = d'.calm.world := rfl
      refine ⟨Nat.le_add_right_of_le ?_, .inl ?_⟩
      · show d'.relations.length ≤ _
        rw [h1, hd]; exact hcl now
      · show db.world.Step op (.ok (f v)) d'.world
        rw [h2, hd, hcw]; exact hstep
  cases op with
  | setRoot pk n =>
    have hx : TrustGraph.setRoot pk n db.calm = (.ok (), db.calm.addRoot pk (getWeightFactor n)) := by
      unfold TrustGraph.setRoot
      refine Search.storage_ok ?_
      show Sqlite.setRootWeightFactor _ _ _ = _
      unfold Sqlite.setRootWeightFactor
      rw [Db.stmt_noFaults hf]
      rfl
    rcases (TrustGraph.setRoot_transparent pk n).answer (TrustGraph.setRoot_failStop pk n) (fun _ => Answer.unit) hx with ⟨hnf, he, h⟩ | ⟨d', h, hd⟩
    · change (Op.setRoot pk n).call db = _ at h
      rw [h]
      have hcalm : (TrustGraph.setRoot pk n db).2.calm = db.calm := by
        unfold TrustGraph.setRoot TrustGraph.storage at he ⊢
        rw [M.mapErr_run] at he ⊢
        rcases hs : (Storage.setRootWeightFactor pk (getWeightFactor n) : M Db SqlError Unit) db with ⟨o, s⟩
        rw [hs] at he
        rcases o with o | e | _ | _ <;> try cases (Prod.ext_iff.mp he).1
        change Sqlite.setRootWeightFactor pk (getWeightFactor n) db = _ at hs
        unfold Sqlite.setRootWeightFactor at hs
        exact stmt_err hs fun d h => by cases h
      refine ⟨Nat.le_add_right_of_le (le_of_eq (calm_length hcalm)), .inr ⟨hnf, rfl, ?_⟩⟩
      have e : (TrustGraph.setRoot pk n db).2.world = db.world := calm_world hcalm
      show db.world.Break _ (TrustGraph.setRoot pk n db).2.world
      rw [e]
      exact .nothing _ (by simp)
    · change (Op.setRoot pk n).call db = _ at h
      rw [h]
      have h1 : d'.relations.length = d'.calm.relations.length := rfl
      have h2 : d'.world = d'.calm.world := rfl
      refine ⟨Nat.le_add_right_of_le ?_, .inl ?_⟩
      · show d'.relations.length ≤ _
        rw [h1, hd]; exact le_refl _
      · show db.world.Step _ _ d'.world
        rw [h2, hd, Db.world_addRoot, Db.world_calm]; exact .setRoot pk n
  | addTrust t a now =>
    rcases h : TrustGraph.addTrust t a now db with ⟨o, db'⟩
    obtain ⟨hl, hcase⟩ := addTrust_machine hh (by omega) t a now h
    have hcall : ∀ {o' : Outcome TrustGraphError Answer}, (M.lift o >>= fun y => pure (Answer.weight y) : M Db TrustGraphError Answer) db' = (o', db') → (Op.addTrust t a now).call db = (o', db') := by
      intro o' ho
      show (TrustGraph.addTrust t a now >>= fun w => pure (Answer.weight w) : M Db TrustGraphError Answer) db = _
      rw [M.bind_run, h]
      rw [M.bind_run, M.lift_run] at ho
      exact ho
    rcases hcase with ⟨y, rfl, hadd⟩ | ⟨e, hv, rfl, hw⟩ | ⟨hnf, rfl, hw⟩
    · rw [hcall rfl]
      exact ⟨hl, .inl (.addTrust hadd)⟩
    · rw [hcall rfl]
      refine ⟨hl, .inl ?_⟩
      show db.world.Step _ _ db'.world
      rw [hw]; exact .refuseTrust hv
    · rw [hcall rfl]
      refine ⟨hl, .inr ⟨hnf, rfl, ?_⟩⟩
      show db.world.Break _ db'.world
      rcases hw with e | e
      · rw [e]; exact .nothing _ (by simp)
      · rw [e]; exact .collected _ (by simp) rfl
  | add c now =>
    obtain ⟨ts⟩ := c
    rcases ts with _ | ⟨t, ts⟩
    · exact ⟨Nat.le_add_right _ _, .inl .addEmpty⟩
    · have hoff : (Op.add ⟨t :: ts⟩ now).offers.length = (t :: ts).length := by
        simp [Op.offers, Spec.issuers]
      rw [hoff] at hn ⊢
      rcases hl : TrustGraph.addLoop now t.issuedFor (t :: ts) db with ⟨o, db'⟩
      obtain ⟨h1, hok, h2⟩ := addLoop_machine hr now t.issuedFor (t :: ts) hn hl
      have hcall : (Op.add ⟨t :: ts⟩ now).call db = (unitAnswer o, db') := by
        show (TrustGraph.addLoop now t.issuedFor (t :: ts) >>= fun _ => pure Answer.unit : M Db TrustGraphError Answer) db = _
        rw [M.bind_run, hl]
        cases o <;> rfl
      rw [hcall]
      refine ⟨h1, ?_⟩
      rcases h2 with h2 | ⟨hf, ho, h2⟩
      · exact .inl (.add h2)
      · refine .inr ⟨hf, ?_, .add h2⟩
        dsimp only
        rw [ho]; rfl
  | revoke r =>
    rcases Revocation.verify_cases r with hv | ⟨e, hv⟩
    · have hx := Db.revoke_eq hc hf hv
      rcases (TrustGraph.revoke_transparent r).answer (TrustGraph.revoke_failStop r) (fun _ => Answer.unit) hx with ⟨hnf, he, h⟩ | ⟨d', h, hd⟩
      · change (Op.revoke r).call db = _ at h
        rw [h]
        have hcalm : (TrustGraph.revoke r db).2.calm = db.calm := by
          unfold TrustGraph.revoke at he ⊢
          rw [hv] at he ⊢
          rw [Outcome.mapErr_ok, M.bind_run_ok (M.lift_run _ _)] at he ⊢
          unfold TrustGraph.storage at he ⊢
          rw [M.mapErr_run] at he ⊢
          rcases hs : (Storage.revoke r : M Db SqlError Unit) db with ⟨o, s⟩
          rw [hs] at he
          rcases o with o | e | _ | _ <;> try cases (Prod.ext_iff.mp he).1
          exact updateRelation_err hs
        refine ⟨Nat.le_add_right_of_le (le_of_eq (calm_length hcalm)), .inr ⟨hnf, rfl, ?_⟩⟩
        have e : (TrustGraph.revoke r db).2.world = db.world := calm_world hcalm
        show db.world.Break _ (TrustGraph.revoke r db).2.world
        rw [e]
        exact .nothing _ (by simp)
      · change (Op.revoke r).call db = _ at h
        rw [h]
        have h1 : d'.relations.length = d'.calm.relations.length := rfl
        have h2 : d'.world = d'.calm.world := rfl
        refine ⟨?_, .inl ?_⟩
        · show d'.relations.length ≤ _
          rw [h1, hd]; exact Db.update_length_le (db := db.calm) (.revocation r)
        · show db.world.Step _ _ d'.world
          rw [h2, hd, hc.world_update, Db.world_calm]; exact .revoke hv
    · have h : (Op.revoke r).call db = (.err (.revokeCheckError e), db) := by
        show (TrustGraph.revoke r >>= fun _ => pure Answer.unit : M Db TrustGraphError Answer) db = _
        rw [M.bind_run]
        unfold TrustGraph.revoke
        rw [hv]
        rfl
      rw [h]
      exact ⟨Nat.le_add_right _ _, .inl (.refuseRevocation hv)⟩
  | weight pk now =>
    obtain ⟨x, hx, hg⟩ := Db.weight_spec hc hf (by simp only [Op.offers, List.length_nil] at hn; exact hn) pk now
    refine query (TrustGraph.weight_transparent pk now) (TrustGraph.weight_failStop pk now) Answer.weight _ now
      (TrustGraph.weight_steps (collected_collecting now) pk) hx rfl rfl (by simp) (.weight ?_)
    have := (hc.weight_iff now pk x).mpr hg
    rwa [Db.world_calm] at this
  | weightFrom pk a now =>
    obtain ⟨x, hx, hg⟩ := Db.weightFrom_spec hc hf (by simp only [Op.offers, List.length_nil] at hn; exact hn) pk a now
    refine query (TrustGraph.weightFrom_transparent pk a now) (TrustGraph.weightFrom_failStop pk a now) Answer.weight _ now
      (TrustGraph.weightFrom_steps (collected_collecting now) pk a) hx rfl rfl (by simp) (.weightFrom ?_)
    have := (hc.weightFrom_iff now pk a x).mpr hg
    rwa [Db.world_calm] at this
  | getAllCerts pk now =>
    have hx := Db.getAllCerts_eq hc hf pk now
    refine query (TrustGraph.getAllCerts_transparent pk now) (TrustGraph.getAllCerts_failStop pk now) Answer.certs _ now
      (TrustGraph.getAllCerts_steps (collected_collecting now) pk) hx rfl rfl (by simp) (.getAllCerts ?_)
    refine ⟨Db.certs_nodup hc pk now, Db.certs_sorted _ pk now, fun c => ?_⟩
    rw [Db.mem_certs_iff hc, hc.snapshot_eq, Db.world_calm, and_true]
  | getAllCertsFrom pk a now =>
    have hx := Db.getAllCertsFrom_eq hc hf pk a now
    refine query (TrustGraph.getAllCertsFrom_transparent pk a now) (TrustGraph.getAllCertsFrom_failStop pk a now) Answer.certs _ now
      (TrustGraph.getAllCertsFrom_steps (collected_collecting now) pk a) hx rfl rfl (by simp) (.getAllCertsFrom ?_)
    refine ⟨(Db.certs_nodup hc pk now).filter _, (Db.certs_sorted _ pk now).filter _, fun c => ?_⟩
    rw [List.mem_filter, Db.mem_certs_iff hc, hc.snapshot_eq, Db.world_calm, List.any_eq_true]
    simp only [beq_iff_eq]
  | getRevocations pk =>
    have hx : TrustGraph.getRevocations pk db.calm = (.ok (db.calm.view.revs pk), db.calm) := Search.storage_ok ((Db.reads hc hf).revs pk)
    have hst := TrustGraph.getRevocations_steps quiet_calm pk db
    rcases (TrustGraph.getRevocations_transparent pk).answer (TrustGraph.getRevocations_failStop pk) Answer.revocations hx with
      ⟨hnf, -, h⟩ | ⟨d', h, hd⟩
    · change (Op.getRevocations pk).call db = _ at h
      rw [h]
      refine ⟨Nat.le_add_right_of_le (le_of_eq (calm_length hst)), .inr ⟨hnf, rfl, ?_⟩⟩
      have e : (TrustGraph.getRevocations pk db).2.world = db.world := calm_world hst
      show db.world.Break _ (TrustGraph.getRevocations pk db).2.world
      rw [e]
      exact .nothing _ (by simp)
    · change (Op.getRevocations pk).call db = _ at h
      rw [h]
      have h1 : d'.relations.length = d'.calm.relations.length := rfl
      have h2 : d'.world = d'.calm.world := rfl
      refine ⟨Nat.le_add_right_of_le ?_, .inl ?_⟩
      · show d'.relations.length ≤ _
        rw [h1, hd]; exact le_refl _
      · show db.world.Step _ _ d'.world
        rw [h2, hd, Db.world_calm]
        refine .getRevocations ⟨Db.view_revs_nodup hc pk, fun r => ?_⟩
        rw [Db.mem_view_revs hc, hh.world_relation]
        exact ⟨fun h => ⟨h.1, rfl, h.2⟩, fun h => ⟨h.1, h.2.2⟩⟩

theorem Trace.reachable {faulty : Prop} {tr : List (Op × Outcome TrustGraphError Answer)} {db : Db} (h : Trace faulty tr db) : Reachable db := by
  induction h with
  | start => exact .init
  | step op _ ih => rw [Op.call_state]; exact ih.step op
  | weather fs _ _ ih => exact ih.weather fs

/-- **C99.** Every run of the library over SQLite, with or without failing SQL statements, is a run of the reference machine: the same calls with the same
answers.  (Fewer than 2^32 - 16 relations are handed over in the run.) -/
theorem C99_refines {faulty : Prop} {tr : List (Op × Outcome TrustGraphError Answer)} {db : Db} (h : Trace faulty tr db)
    (hn : (tr.flatMap (fun p => p.1.offers)).length + 16 < 2 ^ 32) : Spec.World.Run faulty tr db.world := by
  suffices hs : ∀ {tr db}, Trace faulty tr db → (tr.flatMap (fun p => p.1.offers)).length + 16 < 2 ^ 32 →
      Spec.World.Run faulty tr db.world ∧ db.relations.length ≤ (tr.flatMap (fun p => p.1.offers)).length ∧ (¬ faulty → db.NoFaults) from
    (hs h hn).1
  intro tr db h hn
  induction h with
  | start => exact ⟨by rw [Db.world_init]; exact .start, Nat.zero_le _, fun _ => rfl⟩
  | @step tr db op htr ih =>
    rw [List.flatMap_append, List.length_append] at hn ⊢
    have hoff : ([(op, (op.call db).1)].flatMap (fun p : Op × Outcome TrustGraphError Answer => p.1.offers)) = op.offers := by simp
    rw [hoff] at hn ⊢
    obtain ⟨h1, h2, h3⟩ := ih (by omega)
    obtain ⟨hl, hstep⟩ := op.refines htr.reachable (by omega)
    refine ⟨?_, by omega, fun hf => op.call_failStop.noFaults (h3 hf)⟩
    rcases hstep with hs | ⟨hnf, ho, hs⟩
    · exact .step h1 hs
    · rw [ho]
      by_cases hf : faulty
      · exact .fault hf h1 hs
      · exact absurd (h3 hf) hnf
  | weather fs hf _ ih =>
    obtain ⟨h1, h2, h3⟩ := ih hn
    exact ⟨h1, h2, fun h => absurd hf h⟩

/-- The same answer, except perhaps for the order of the listed certificates or revocations. -/
inductive Spec.SameAnswer : Outcome TrustGraphError Answer → Outcome TrustGraphError Answer → Prop
  | same (o) : SameAnswer o o
  | certs {cs cs'} : cs.Perm cs' → SameAnswer (.ok (.certs cs)) (.ok (.certs cs'))
  | revocations {rs rs'} : rs.Perm rs' → SameAnswer (.ok (.revocations rs)) (.ok (.revocations rs'))

theorem Spec.World.Certs.perm {w : Spec.World} {k : PublicKey} {p : Certificate → Prop} {cs cs' : List Certificate}
    (h : w.Certs k p cs) (h' : w.Certs k p cs') : cs.Perm cs' :=
  (List.perm_ext_iff_of_nodup h.1 h'.1).mpr fun c => (h.2.2 c).trans (h'.2.2 c).symm

theorem Spec.World.AddTrust.unique {w : Spec.World} {a : PublicKey} {t : Trust} {now : Dur} {y y' : Nat} {w1 w2 : Spec.World}
    (h : w.AddTrust a t now y w1) (h' : w.AddTrust a t now y' w2) : y = y' ∧ w1 = w2 := by
  obtain ⟨-, x, hx, rfl, rfl⟩ := h
  obtain ⟨-, x', hx', rfl, rfl⟩ := h'
  cases hx.unique hx'
  exact ⟨rfl, rfl⟩

theorem Spec.World.AddChain.unique {now : Dur} {w : Spec.World} {a : PublicKey} {ts : List Trust} {o o' : Outcome TrustGraphError Answer}
    {w1 w2 : Spec.World} (h : Spec.World.AddChain now w a ts o w1) (h' : Spec.World.AddChain now w a ts o' w2) : o = o' ∧ w1 = w2 := by
  induction h with
  | done => cases h'; exact ⟨rfl, rfl⟩
  | refused hv =>
    cases h' with
    | refused hv' => rw [hv] at hv'; cases hv'; exact ⟨rfl, rfl⟩
    | next hadd _ => have := hadd.1; rw [hv] at this; cases this
  | next hadd _ ih =>
    cases h' with
    | refused hv' => have := hadd.1; rw [hv'] at this; cases this
    | next hadd' hch =>
      obtain ⟨-, rfl⟩ := hadd.unique hadd'
      exact ih hch

/-- **C99**: the machine leaves nothing open but the order of lists: a call has one effect and one answer, up to the order of the certificates of one length
and of the revocations. -/
theorem C99_determined {w w1 w2 : Spec.World} {op : Op} {o1 o2 : Outcome TrustGraphError Answer} (h1 : w.Step op o1 w1) (h2 : w.Step op o2 w2) :
    w1 = w2 ∧ Spec.SameAnswer o1 o2 := by
  cases h1 with
  | setRoot => cases h2; exact ⟨rfl, .same _⟩
  | addTrust h =>
    cases h2 with
    | addTrust h' =>
      obtain ⟨rfl, rfl⟩ := h.unique h'
      exact ⟨rfl, .same _⟩
    | refuseTrust hv => have := h.1; rw [hv] at this; cases this
  | refuseTrust hv =>
    cases h2 with
    | addTrust h' => have := h'.1; rw [hv] at this; cases this
    | refuseTrust hv' => rw [hv] at hv'; cases hv'; exact ⟨rfl, .same _⟩
  | add h =>
    cases h2 with
    | add h' =>
      obtain ⟨rfl, rfl⟩ := h.unique h'
      exact ⟨rfl, .same _⟩
  | addEmpty => cases h2; exact ⟨rfl, .same _⟩
  | revoke hv =>
    cases h2 with
    | revoke => exact ⟨rfl, .same _⟩
    | refuseRevocation hv' => rw [hv] at hv'; cases hv'
  | refuseRevocation hv =>
    cases h2 with
    | revoke hv' => rw [hv] at hv'; cases hv'
    | refuseRevocation hv' => rw [hv] at hv'; cases hv'; exact ⟨rfl, .same _⟩
  | weight h =>
    cases h2 with
    | weight h' => cases h.unique h'; exact ⟨rfl, .same _⟩
  | weightFrom h =>
    cases h2 with
    | weightFrom h' => cases h.unique h'; exact ⟨rfl, .same _⟩
  | getAllCerts h =>
    cases h2 with
    | getAllCerts h' => exact ⟨rfl, .certs (h.perm h')⟩
  | getAllCertsFrom h =>
    cases h2 with
    | getAllCertsFrom h' => exact ⟨rfl, .certs (h.perm h')⟩
  | getRevocations h =>
    cases h2 with
    | getRevocations h' =>
      exact ⟨rfl, .revocations ((List.perm_ext_iff_of_nodup h.1 h'.1).mpr fun r => (h.2 r).trans (h'.2 r).symm)⟩

end TG
