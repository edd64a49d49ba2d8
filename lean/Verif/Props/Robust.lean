/-
Properties C35, C36, C70: failures, queries and locality.
-/
import Verif.Proofs.FailStop
import Verif.Props.History

namespace TG
open TG.Sqlite
variable [Env]

/-- The same tables (only the fault schedule may differ). -/
def Db.SameTables (a b : Db) : Prop := a.relations = b.relations ∧ a.roots = b.roots

/-- **C35.** No wrong answers: a call during which SQL statements may fail either reports an internal storage error, or returns what it would have
returned without failures, and leaves the same tables. -/
theorem C35_failures_are_reported (op : Op) (db : Db) :
    (op.call db).1 = .err .internalStorageError ∨
    ((op.call db).1 = (op.call { db with faults := [] }).1 ∧
      (op.run db).SameTables (op.run { db with faults := [] })) := by
  rcases op.call_transparent db with ⟨e, he, rfl⟩ | ⟨he, hs⟩
  · exact Or.inl he
  · refine Or.inr ⟨he, ?_⟩
    rw [Op.call_state, Op.call_state] at hs
    have h1 : (op.run db).calm.relations = (op.run db.calm).relations := by rw [hs]
    have h2 : (op.run db).calm.roots = (op.run db.calm).roots := by rw [hs]
    exact ⟨h1, h2⟩

/-- **C35.** No SQL statement is executed after one that has failed, so a crash at a statement leaves the tables that a failure of that statement
leaves: the part of the schedule used up has no failure, or ends with the only one, and then the outcome is an internal storage error. -/
theorem C35_fail_stop (op : Op) (db : Db) :
    (∃ n, db.faults = List.replicate n false ++ (op.run db).faults) ∨
    (∃ n, db.faults = List.replicate n false ++ true :: (op.run db).faults ∧
      (op.call db).1 = .err .internalStorageError) := by
  have key : FailStop IsInternal op.call := by
    cases op
    · exact (TrustGraph.setRoot_failStop _ _).bind fun _ => .pure _
    · exact (TrustGraph.addTrust_failStop _ _ _).bind fun _ => .pure _
    · exact (TrustGraph.add_failStop _ _).bind fun _ => .pure _
    · exact (TrustGraph.revoke_failStop _).bind fun _ => .pure _
    · exact (TrustGraph.weight_failStop _ _).bind fun _ => .pure _
    · exact (TrustGraph.weightFrom_failStop _ _ _).bind fun _ => .pure _
    · exact (TrustGraph.getAllCerts_failStop _ _).bind fun _ => .pure _
    · exact (TrustGraph.getAllCertsFrom_failStop _ _ _).bind fun _ => .pure _
    · exact (TrustGraph.getRevocations_failStop _).bind fun _ => .pure _
  rcases key db with h | ⟨n, h, e, he, rfl⟩
  · exact Or.inl (by rwa [Op.call_state] at h)
  · exact Or.inr ⟨n, by rwa [Op.call_state] at h, he⟩

/-- The tables are untouched, or expired trusts were removed. -/
def Untouched (t : Option Dur) (db db' : Db) : Prop :=
  db'.roots = db.roots ∧
    (db'.relations = db.relations ∨ ∃ now, t = some now ∧ db'.relations = (db.collect now).relations)

omit [Env] in
theorem untouched_collecting (now : Dur) : Collecting (Untouched (some now)) now where
  refl _ := ⟨rfl, Or.inl rfl⟩
  trans a b c hab hbc := by
    refine ⟨hbc.1.trans hab.1, ?_⟩
    have hcc : ((a.collect now).collect now).relations = (a.collect now).relations :=
      congrArg Db.relations (Db.collect_collect_of_le (Int.le_refl _))
    rcases hab.2 with e1 | ⟨n1, h1, e1⟩ <;> rcases hbc.2 with e2 | ⟨n2, h2, e2⟩
    · exact Or.inl (e2.trans e1)
    · refine Or.inr ⟨n2, h2, ?_⟩
      unfold Db.collect at e2 ⊢
      rw [e2, e1]
    · exact Or.inr ⟨n1, h1, e2.trans e1⟩
    · cases h1
      cases h2
      refine Or.inr ⟨now, rfl, ?_⟩
      rw [← hcc]
      unfold Db.collect at e1 e2 ⊢
      rw [e2, e1]
  faults _ _ := ⟨rfl, Or.inl rfl⟩
  collect _ := ⟨rfl, Or.inr ⟨now, rfl, rfl⟩⟩

theorem updateRelation_failed (r : TrustRelation) (db : Db) (h : ∀ u, (updateRelation r db).1 ≠ .ok u) :
    (updateRelation r db).2.SameTables db := by
  have hins : ∀ s : Db, (∀ u, (Sqlite.insert r s).1 ≠ .ok u) → (Sqlite.insert r s).2.SameTables s := by
    intro s hs
    unfold Sqlite.insert stmt at *
    split
    · rename_i hf; rw [hf] at hs; exact absurd rfl (hs ())
    · exact ⟨rfl, rfl⟩
    · rename_i fs hf; rw [hf] at hs; exact absurd rfl (hs ())
  unfold updateRelation at *
  rw [M.bind_run] at *
  obtain ⟨fs, hs, -⟩ := getRelation_run r.issuedFor r.issuedBy db
  rcases hg : getRelation r.issuedFor r.issuedBy db with ⟨o, s⟩
  rw [hg] at hs h
  simp only at hs
  subst hs
  rcases o with o | _ | _ | _
  · rcases o with _ | (a | r')
    · exact hins _ h
    · dsimp only at h ⊢
      split at h
      · rename_i hl
        rw [if_pos hl]
        exact hins _ h
      · exact absurd rfl (h ())
    · dsimp only at h ⊢
      split at h
      · rename_i hl
        rw [if_pos hl]
        exact hins _ h
      · exact absurd rfl (h ())
  · exact ⟨rfl, rfl⟩
  · exact ⟨rfl, rfl⟩
  · exact ⟨rfl, rfl⟩

omit [Env] in
theorem M.bind_pure_fst_ne {S ε α β : Type} {x : M S ε α} {f : α → β} {s : S}
    (h : ∀ b, ((x >>= fun a => pure (f a)) s).1 ≠ .ok b) : ∀ a, (x s).1 ≠ .ok a := by
  intro a ha
  rcases hx : x s with ⟨o, s'⟩
  rw [hx] at ha
  simp only at ha
  subst ha
  exact h (f a) (by rw [M.bind_run_ok hx]; rfl)

theorem addTrust_failed {t : Trust} {by' : PublicKey} {now : Dur} {db : Db}
    (h : ∀ w, (TrustGraph.addTrust t by' now db).1 ≠ .ok w) :
    Untouched (some now) db (TrustGraph.addTrust t by' now db).2 := by
  unfold TrustGraph.addTrust at *
  rw [M.bind_run, M.lift_run] at *
  rcases hv : (t.verify by' now).mapErr TrustGraphError.trustVerificationError with u | e | _ | _
  · rw [hv] at h
    dsimp only at h ⊢
    rw [M.bind_run] at *
    have hst := TrustGraph.getNextWeight_steps (untouched_collecting now) by' t.issuedFor db
    rcases hn : TrustGraph.getNextWeight by' t.issuedFor now db with ⟨o, s⟩
    rw [hn] at hst h
    cases o with
    | ok w =>
      dsimp only at h ⊢ hst
      split at h
      · exact absurd rfl (h 0)
      · rename_i hw
        rw [if_neg hw]
        have h' := M.bind_pure_fst_ne (f := fun _ : Unit => w) h
        have e : ((TrustGraph.storage (Storage.updateAuth ⟨t, by'⟩ now) >>= fun _ => pure w : M Db TrustGraphError Nat) s).2
            = (updateRelation (.auth ⟨t, by'⟩) s).2 :=
          M.bind_pure_snd (TrustGraph.storage (Storage.updateAuth ⟨t, by'⟩ now)) (fun _ : Unit => w) s
        show Untouched (some now) db ((TrustGraph.storage (Storage.updateAuth ⟨t, by'⟩ now) >>=
          fun _ => pure w : M Db TrustGraphError Nat) s).2
        rw [e]
        have hu : ∀ u, (updateRelation (.auth ⟨t, by'⟩) s).1 ≠ .ok u := by
          intro u hu
          apply h' u
          show ((updateRelation (.auth ⟨t, by'⟩) s).1.mapErr _) = _
          rw [hu]
          rfl
        have := updateRelation_failed _ s hu
        refine (untouched_collecting now).trans _ _ _ hst ?_
        exact ⟨this.2, Or.inl this.1⟩
    | err e => exact hst
    | panic => exact hst
    | diverge => exact hst
  all_goals exact (untouched_collecting now).refl db

/-- **C35.** A call, other than `add`, that does not succeed (for whatever reason) changes nothing: the tables are as before, possibly without the
trusts that a collection at the time of the call removes. -/
theorem C35_failed_call_changes_nothing (op : Op) (hadd : ∀ c now, op ≠ .add c now) (db : Db)
    (h : ∀ a, (op.call db).1 ≠ .ok a) : Untouched op.time db (op.run db) := by
  cases op with
  | setRoot pk n =>
    have h := M.bind_pure_fst_ne h
    show Untouched none db (TrustGraph.setRoot pk n db).2
    unfold TrustGraph.setRoot TrustGraph.storage at *
    rw [M.mapErr_run] at *
    change ∀ a, Outcome.mapErr _ (Sqlite.setRootWeightFactor pk (getWeightFactor n) db).1 ≠ _ at h
    show Untouched none db (Sqlite.setRootWeightFactor pk (getWeightFactor n) db).2
    unfold Sqlite.setRootWeightFactor stmt at *
    split
    · rename_i hf; rw [hf] at h; exact absurd rfl (h ())
    · exact ⟨rfl, Or.inl rfl⟩
    · rename_i fs hf; rw [hf] at h; exact absurd rfl (h ())
  | addTrust t a now => exact addTrust_failed (M.bind_pure_fst_ne h)
  | add c now => exact absurd rfl (hadd c now)
  | revoke r =>
    have h := M.bind_pure_fst_ne h
    show Untouched none db (TrustGraph.revoke r db).2
    unfold TrustGraph.revoke at *
    rw [M.bind_run, M.lift_run] at *
    rcases hv : r.verify.mapErr TrustGraphError.revokeCheckError with u | e | _ | _
    · rw [hv] at h
      dsimp only at h ⊢
      have := updateRelation_failed (.revocation r) db (by
        intro u hu
        apply h u
        show ((updateRelation (.revocation r) db).1.mapErr _) = _
        rw [hu]
        rfl)
      exact ⟨this.2, Or.inl this.1⟩
    all_goals exact ⟨rfl, Or.inl rfl⟩
  | weight pk now => exact TrustGraph.weight_steps (untouched_collecting now) pk db
  | weightFrom pk i now => exact TrustGraph.weightFrom_steps (untouched_collecting now) pk i db
  | getAllCerts pk now => exact TrustGraph.getAllCerts_steps (untouched_collecting now) pk db
  | getAllCertsFrom pk i now => exact TrustGraph.getAllCertsFrom_steps (untouched_collecting now) pk i db
  | getRevocations pk =>
    exact TrustGraph.getRevocations_steps (R := Untouched none)
      ⟨fun _ => ⟨rfl, Or.inl rfl⟩, fun a b c h1 h2 => ⟨h2.1.trans h1.1, by
        rcases h1.2 with e1 | ⟨_, e, _⟩
        · rcases h2.2 with e2 | ⟨_, e, _⟩
          · exact Or.inl (e2.trans e1)
          · cases e
        · cases e⟩, fun _ _ => ⟨rfl, Or.inl rfl⟩⟩ pk db

/-- **C35.** When `add(cert)` does not succeed, the database is the one after adding the trusts of a proper prefix of the certificate successfully,
one by one, possibly without the trusts that a collection removes. -/
theorem C35_failed_add_is_prefix {c : Certificate} {now : Dur} {db db' : Db} {o : Outcome TrustGraphError Unit}
    (h : TrustGraph.add c now db = (o, db')) (ho : o ≠ .ok ()) :
    (c.chain = [] ∧ db' = db) ∨
    ∃ k < c.chain.length, ∃ mid, AddsInOrder now (((Spec.issuers c.chain).zip c.chain).take k) db (.ok ()) mid ∧
      Untouched (some now) mid db' := by
  obtain ⟨h0, h1⟩ := C22_add_in_order_partial c now db
  by_cases hc : c.chain = []
  · have := h0 hc
    rw [h] at this
    cases this
    exact Or.inl ⟨hc, rfl⟩
  · right
    have h2 := h1 hc
    rw [h] at h2
    have hlen : ((Spec.issuers c.chain).zip c.chain).length = c.chain.length := by
      rw [List.length_zip, Spec.issuers_length, Nat.min_self]
    rw [← hlen]
    generalize (Spec.issuers c.chain).zip c.chain = ps at h2
    clear h h0 h1 hlen hc
    dsimp only at h2
    induction h2 with
    | done => exact absurd rfl ho
    | next hw _ ih =>
      obtain ⟨k, hk, mid, hm, hu⟩ := ih ho
      exact ⟨k + 1, Nat.succ_lt_succ hk, mid, .next hw hm, hu⟩
    | @error by' t rest s s' e hw =>
      have := addTrust_failed (t := t) (by' := by') (now := now) (db := s) (by rw [hw]; simp)
      rw [hw] at this
      exact ⟨0, by simp, s, .done s, this⟩
    | @panic by' t rest s s' hw =>
      have := addTrust_failed (t := t) (by' := by') (now := now) (db := s) (by rw [hw]; simp)
      rw [hw] at this
      exact ⟨0, by simp, s, .done s, this⟩
    | @diverge by' t rest s s' hw =>
      have := addTrust_failed (t := t) (by' := by') (now := now) (db := s) (by rw [hw]; simp)
      rw [hw] at this
      exact ⟨0, by simp, s, .done s, this⟩

/-- **C35.** All invariants hold in whatever database is left, by any call, with any failures. -/
theorem C35_invariants_hold {db : Db} (hr : Reachable db) (op : Op) (faults : List Bool) :
    (op.run { db with faults }).Healthy ∧ ∀ r, (op.run { db with faults }).Stored r → r.SignatureValid :=
  ⟨((hr.weather faults).step op).healthy, ((hr.weather faults).step op).verified⟩

/-- The same roots, and the same relations once expired trusts are collected. -/
def Agree (now : Dur) (db db' : Db) : Prop := db'.roots = db.roots ∧ (db'.collect now).relations = (db.collect now).relations

omit [Env] in
theorem agree_collecting {t now : Dur} (h : asI64 t.secs ≤ asI64 now.secs) : Collecting (Agree now) t where
  refl _ := ⟨rfl, rfl⟩
  trans _ _ _ h1 h2 := ⟨h2.1.trans h1.1, h2.2.trans h1.2⟩
  faults _ _ := ⟨rfl, rfl⟩
  collect _ := ⟨rfl, congrArg Db.relations (Db.collect_collect_of_le h)⟩

theorem getAllCerts_agree {db db' : Db} {now : Dur} (hf : db.NoFaults) (hf' : db'.NoFaults) (h : Agree now db db')
    (pk : PublicKey) : (TrustGraph.getAllCerts pk now db') = (TrustGraph.getAllCerts pk now db) := by
  have e : db'.collect now = db.collect now := by
    have h1 := h.1
    have h2 := h.2
    have h3 : db'.faults = db.faults := hf'.trans hf.symm
    unfold Db.collect at *
    simp only at h2
    rw [h2, h1, h3]
  have h1 : TrustGraph.storage (Storage.removeExpired now) db = (.ok (), db.collect now) :=
    Search.storage_ok (Db.removeExpired_eq hf now)
  have h2 : TrustGraph.storage (Storage.removeExpired now) db' = (.ok (), db.collect now) :=
    Search.storage_ok ((Db.removeExpired_eq hf' now).trans (by rw [e]))
  unfold TrustGraph.getAllCerts
  rw [M.bind_run_ok h1, M.bind_run_ok h2]

theorem getRootWeightFactor_agree {db db' : Db} (hf : db.NoFaults) (hf' : db'.NoFaults) (h : db'.roots = db.roots)
    (pk : PublicKey) : (Sqlite.getRootWeightFactor pk db').1 = (Sqlite.getRootWeightFactor pk db).1 ∧
      (Sqlite.getRootWeightFactor pk db').2 = db' ∧ (Sqlite.getRootWeightFactor pk db).2 = db := by
  unfold Sqlite.getRootWeightFactor
  rw [Db.stmt_noFaults hf, Db.stmt_noFaults hf', h]
  split
  · exact ⟨rfl, rfl, rfl⟩
  · split <;> exact ⟨rfl, rfl, rfl⟩

theorem getRelations_agree {db db' : Db} {now : Dur} (hf : db.NoFaults) (hf' : db'.NoFaults) (h : Agree now db db')
    (pk : PublicKey) : (getRelations pk revocationType db').1 = (getRelations pk revocationType db).1 := by
  have key : ∀ d : Db, (d.collect now).relations.filter
      (fun r => r.issuedFor = keyText pk ∧ r.relationType = revocationType)
      = d.relations.filter (fun r => r.issuedFor = keyText pk ∧ r.relationType = revocationType) := by
    intro d
    unfold Db.collect
    rw [List.filter_filter]
    apply List.filter_congr
    intro r _
    rw [Bool.eq_iff_iff]
    simp only [Bool.and_eq_true, decide_eq_true_eq]
    constructor
    · exact fun h => h.1
    · intro h
      refine ⟨h, fun h' => ?_⟩
      rw [h.2] at h'
      exact absurd h'.2 (by decide)
  unfold getRelations
  rw [Db.stmt_noFaults hf, Db.stmt_noFaults hf']
  simp only
  rw [← key db', ← key db, h.2]

omit [Env] in
theorem M.bind_agree {ε α β : Type} {x : M Db ε α} {f : α → M Db ε β} {db db' : Db} {o : Outcome ε α}
    (h : x db = (o, db)) (h' : x db' = (o, db')) (hf : ∀ a, (f a db').1 = (f a db).1) :
    ((x >>= f) db').1 = ((x >>= f) db).1 := by
  rw [M.bind_run, M.bind_run, h, h']
  cases o with
  | ok a => exact hf a
  | _ => rfl

/-- Answers without failures depend only on what `Agree` preserves. -/
theorem answers_agree {db db' : Db} {now : Dur} (hf : db.NoFaults) (hf' : db'.NoFaults) (h : Agree now db db') {q : Op}
    (hq : q.IsQuery) (ht : ∀ t, q.time = some t → t = now) : (q.call db').1 = (q.call db).1 := by
  have hcerts := getAllCerts_agree hf hf' h
  have hbind : ∀ {α : Type} (pk : PublicKey) (f : List Certificate → M Db TrustGraphError α),
      (TrustGraph.getAllCerts pk now >>= f) db' = (TrustGraph.getAllCerts pk now >>= f) db := by
    intro α pk f
    rw [M.bind_run, M.bind_run, hcerts pk]
  cases q with
  | setRoot pk n => cases hq
  | addTrust t a now => cases hq
  | add c now => cases hq
  | revoke r => cases hq
  | weight pk t =>
    obtain rfl := ht t rfl
    obtain ⟨h1, h2, h3⟩ := getRootWeightFactor_agree hf hf' h.1 pk
    have e : TrustGraph.storage (Storage.getRootWeightFactor pk) db
        = (((Sqlite.getRootWeightFactor pk db).1).mapErr (fun _ => TrustGraphError.internalStorageError), db) :=
      Prod.ext rfl h3
    have e' : TrustGraph.storage (Storage.getRootWeightFactor pk) db'
        = (((Sqlite.getRootWeightFactor pk db).1).mapErr (fun _ => TrustGraphError.internalStorageError), db') :=
      Prod.ext (congrArg (Outcome.mapErr _) h1) h2
    unfold Op.call TrustGraph.weight
    simp only [bind_assoc]
    refine M.bind_agree e e' fun a => ?_
    rw [hbind]
  | weightFrom pk i t =>
    obtain rfl := ht t rfl
    unfold Op.call TrustGraph.weightFrom TrustGraph.getAllCertsFrom
    simp only [bind_assoc]
    rw [hbind]
  | getAllCerts pk t =>
    obtain rfl := ht t rfl
    exact congrArg Prod.fst (hbind pk _)
  | getAllCertsFrom pk i t =>
    obtain rfl := ht t rfl
    unfold Op.call TrustGraph.getAllCertsFrom
    simp only [bind_assoc]
    rw [hbind]
  | getRevocations pk =>
    have h2 : ∀ d : Db, d.NoFaults → (getRelations pk revocationType d).2 = d := by
      intro d hd
      unfold getRelations
      rw [Db.stmt_noFaults hd]
    have e1 : getRelations pk revocationType db = ((getRelations pk revocationType db).1, db) := Prod.ext rfl (h2 db hf)
    have e2 : getRelations pk revocationType db' = ((getRelations pk revocationType db).1, db') :=
      Prod.ext (getRelations_agree hf hf' h pk) (h2 db' hf')
    have e3 : (Sqlite.getRevocations pk db').1 = (Sqlite.getRevocations pk db).1 := by
      unfold Sqlite.getRevocations
      exact M.bind_agree e1 e2 fun a => rfl
    have e4 : (TrustGraph.getRevocations pk db').1 = (TrustGraph.getRevocations pk db).1 :=
      congrArg (Outcome.mapErr _) e3
    unfold Op.call
    simp only [M.bind_run]
    rcases hx : TrustGraph.getRevocations pk db with ⟨o, s⟩
    rcases hx' : TrustGraph.getRevocations pk db' with ⟨o', s'⟩
    rw [hx, hx'] at e4
    simp only at e4
    subst e4
    cases o' <;> rfl

/-- **C36**, below 2^63 seconds. Calling any queries, at times not later than `now` (in the database's order of times, which is the usual one below 2^63; otherwise it fails:
`C36_queries_do_not_disturb_fails`), does not change
what any query at `now` answers: certificates in the same order, the same weights, the same revocations.  (With SQL failures: if both
succeed, the answers are equal.) -/
theorem C36_queries_do_not_disturb_partial {db db' : Db} {now : Dur} {q : Op} (hq : q.IsQuery) (ht : ∀ t, q.time = some t → t = now)
    (hl : Later (fun op => op.IsQuery ∧ ∀ t, op.time = some t → asI64 t.secs ≤ asI64 now.secs) db db') :
    (db.NoFaults → db'.NoFaults → (q.call db').1 = (q.call db).1) ∧
    ∀ a a', (q.call db).1 = .ok a → (q.call db').1 = .ok a' → a = a' := by
  have hagree : Agree now db db' := by
    induction hl with
    | refl => exact ⟨rfl, rfl⟩
    | weather fs _ ih => exact ih
    | @step db1 op hok _ ih =>
      have hq0 : Quiet (Agree now) := (agree_collecting (Int.le_refl (asI64 now.secs))).toQuiet
      refine hq0.trans _ _ _ ih (Op.run_steps hq0 op ?_ ?_ ?_ db1)
      · intro t ht
        exact (agree_collecting (hok.2 t ht)).collect
      · intro r hr
        exfalso
        have := hok.1
        cases op <;> simp_all [Op.offers, Op.IsQuery]
      · rintro pk n rfl
        exact absurd hok.1 (by simp [Op.IsQuery])
  refine ⟨fun hf hf' => answers_agree hf hf' hagree hq ht, ?_⟩
  intro a a' ha ha'
  have h1 := q.call_transparent.ok (db := db) (db' := (q.call db).2) (Prod.ext ha rfl)
  have h2 := q.call_transparent.ok (db := db') (db' := (q.call db').2) (Prod.ext ha' rfl)
  have h3 := answers_agree (db := db.calm) (db' := db'.calm) rfl rfl hagree hq ht
  rw [h1, h2] at h3
  cases h3
  rfl

/-- The relations of all pairs other than (`a` trusting `b`) are the same. -/
structure AgreeExcept (a b : PublicKey) (g g' : Spec.Snapshot) : Prop where
  trusted : ∀ k t, ¬ (k = a ∧ t.issuedFor = b) → (g'.trusted k t ↔ g.trusted k t)
  revoked : ∀ k k', ¬ (k = a ∧ k' = b) → (g'.revoked k k' ↔ g.revoked k k')
  root : ∀ k, g'.root k ↔ g.root k

theorem AgreeExcept.admissible {a b : PublicKey} {g g' : Spec.Snapshot} (h : AgreeExcept a b g g') {target : PublicKey}
    {c : Certificate} (hc : ¬ (a ∈ c.keys ∧ b ∈ c.keys)) (hadm : Spec.Admissible g target c) :
    Spec.Admissible g' target c := by
  have hmem : ∀ (i : Nat) t, c.chain[i]? = some t → t.issuedFor ∈ c.keys := by
    intro i t hi
    exact List.mem_map.mpr ⟨t, List.mem_of_getElem? hi, rfl⟩
  have hpair : ∀ (i j : Nat) x y, c.chain[i]? = some x → c.chain[j]? = some y → ¬ (x.issuedFor = a ∧ y.issuedFor = b) := by
    rintro i j x y hi hj ⟨rfl, rfl⟩
    exact hc ⟨hmem i x hi, hmem j y hj⟩
  refine ⟨⟨hadm.linked.long, ?_, ?_, hadm.linked.target⟩, hadm.noRevisit, ?_⟩
  · intro t ht
    obtain ⟨h1, h2⟩ := hadm.linked.root t ht
    exact ⟨(h.root _).mpr h1, (h.trusted _ _ (hpair 0 0 t t ht ht)).mpr h2⟩
  · intro i x y hx hy
    exact (h.trusted _ _ (hpair i (i + 1) x y hx hy)).mpr (hadm.linked.link i x y hx hy)
  · intro i j x y hij hx hy hne hrev
    exact hadm.unrevoked i j x y hij hx hy hne ((h.revoked _ _ (hpair i j x y hx hy)).mp hrev)

/-- **C70**, below 2^63 seconds. A call that submits only relations of the pair (`a` trusting or revoking `b`), at a time not after `now` (in the order of the database, which is the usual one below 2^63; otherwise it
fails: `C70_unrelated_keys_unaffected_fails`), changes at `now` only certificates
that contain both `a` and `b`. -/
theorem C70_unrelated_keys_unaffected_partial {db s s' : Db} {a b target : PublicKey} {now : Dur} {op : Op} {cs cs' : List Certificate}
    (hr : Reachable db) (hop : ∀ q, op.Submits q → q.issuedBy = a ∧ q.issuedFor = b) (hroot : ∀ pk n, op ≠ .setRoot pk n)
    (ht : ∀ t, op.time = some t → asI64 t.secs ≤ asI64 now.secs)
    (h : TrustGraph.getAllCerts target now db = (.ok cs, s))
    (h' : TrustGraph.getAllCerts target now (op.run db) = (.ok cs', s')) :
    ∀ c, ¬ (a ∈ c.keys ∧ b ∈ c.keys) → (c ∈ cs' ↔ c ∈ cs) := by
  have hagree : AgreeExcept a b (db.snapshot now) ((op.run db).snapshot now) := by
    refine Op.run_steps (R := fun s s' : Db => AgreeExcept a b (s.snapshot now) (s'.snapshot now)) ⟨?_, ?_, ?_⟩ op ?_ ?_ ?_ db
    · exact fun _ => ⟨fun _ _ _ => Iff.rfl, fun _ _ _ => Iff.rfl, fun _ => Iff.rfl⟩
    · exact fun _ _ _ h1 h2 => ⟨fun k t hk => (h2.trusted k t hk).trans (h1.trusted k t hk),
        fun k t hk => (h2.revoked k t hk).trans (h1.revoked k t hk), fun k => (h2.root k).trans (h1.root k)⟩
    · exact fun _ _ => ⟨fun _ _ _ => Iff.rfl, fun _ _ _ => Iff.rfl, fun _ => Iff.rfl⟩
    · intro t hop d
      refine ⟨?_, ?_, fun _ => Iff.rfl⟩
      · intro k tr _
        show _ ∧ _ ↔ _ ∧ _
        rw [Db.stored_collect]
        constructor
        · rintro ⟨⟨h1, -⟩, h2⟩
          exact ⟨h1, h2⟩
        · rintro ⟨h1, h2⟩
          refine ⟨⟨h1, ?_⟩, h2⟩
          intro a e
          cases e
          exact lt_of_le_of_lt (ht t hop) h2
      · intro k k' _
        show (∃ r, _ ∧ _) ↔ ∃ r, _ ∧ _
        simp only [Db.stored_collect]
        simp
    · intro q hq hv _ d _
      obtain ⟨ha, hb⟩ := hop q ⟨hq, hv⟩
      refine ⟨?_, ?_, fun _ => Iff.rfl⟩
      · intro k tr hk
        show _ ∧ _ ↔ _ ∧ _
        rw [Db.stored_put]
        constructor
        · rintro ⟨h1 | h1, h2⟩
          · exfalso
            apply hk
            have e1 := congrArg TrustRelation.issuedBy h1
            have e2 := congrArg TrustRelation.issuedFor h1
            rw [TrustRelation.trunc_issuedBy] at e1
            rw [TrustRelation.trunc_issuedFor] at e2
            exact ⟨e1.trans ha, e2.trans hb⟩
          · exact ⟨h1.1, h2⟩
        · rintro ⟨h1, h2⟩
          exact ⟨Or.inr ⟨h1, fun he => hk ⟨he.2.trans ha, he.1.trans hb⟩⟩, h2⟩
      · intro k k' hk
        show (∃ r, _ ∧ _) ↔ ∃ r, _ ∧ _
        refine exists_congr fun r => ?_
        rw [Db.stored_put]
        constructor
        · rintro ⟨h1 | h1, h2, h3⟩
          · exfalso
            apply hk
            have e1 := congrArg TrustRelation.issuedBy h1
            have e2 := congrArg TrustRelation.issuedFor h1
            rw [TrustRelation.trunc_issuedBy] at e1
            rw [TrustRelation.trunc_issuedFor] at e2
            exact ⟨h2.symm.trans (e1.trans ha), h3.symm.trans (e2.trans hb)⟩
          · exact ⟨h1.1, h2, h3⟩
        · rintro ⟨h1, h2, h3⟩
          exact ⟨Or.inr ⟨h1, fun he => hk ⟨h2.symm.trans (he.2.trans ha), h3.symm.trans (he.1.trans hb)⟩⟩, h2, h3⟩
    · exact fun pk n e => absurd e (hroot pk n)
  intro c hc
  rw [(C02_complete_exactly_once hr.healthy h).2, (C02_complete_exactly_once (hr.step op).healthy h').2]
  refine ⟨fun hadm => AgreeExcept.admissible ?_ hc hadm, hagree.admissible hc⟩
  exact ⟨fun k t hk => (hagree.trusted k t hk).symm, fun k t hk => (hagree.revoked k t hk).symm, fun k => (hagree.root k).symm⟩

end TG
