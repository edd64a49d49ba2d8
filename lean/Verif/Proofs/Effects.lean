/-
What the library calls can do to the tables: garbage collection, and at most one verified, newer relation per added trust or
revocation.
-/
import Verif.Proofs.Certs
import Verif.Proofs.Faults

namespace TG
open TG.Sqlite
variable [Env]

/-- The tables after storing a relation: a row with the same pair of keys is replaced. -/
def Db.put (db : Db) (r : TrustRelation) : Db :=
  { db with relations :=
      db.relations.filter (fun row => ¬ (row.issuedFor = keyText r.issuedFor ∧ row.issuedBy = keyText r.issuedBy))
        ++ [toRow r] }

/-- The row of the pair of keys. -/
def Db.row? (db : Db) (issuedFor issuedBy : PublicKey) : Option RelRow :=
  db.relations.find? (fun r => r.issuedBy = keyText issuedBy ∧ r.issuedFor = keyText issuedFor)

/-- The relation is newer than the one stored for its pair of keys, if any. -/
def Db.Newer (db : Db) (r : TrustRelation) : Prop :=
  ∀ row, db.row? r.issuedFor r.issuedBy = some row →
    ∃ old, parseRelation row = .ok old ∧ old.issuedAt.lt r.issuedAt = true

/-- Adding a root row. -/
def Db.addRoot (db : Db) (pk : PublicKey) (wf : Nat) : Db :=
  { db with roots := db.roots ++ [⟨keyText pk, (wf : Int)⟩] }

/-- A relation between states that allows consuming faults and garbage collection. -/
structure Quiet (R : Db → Db → Prop) : Prop where
  refl : ∀ db, R db db
  trans : ∀ a b c, R a b → R b c → R a c
  faults : ∀ (db : Db) fs, R db { db with faults := fs }

/-- ... including garbage collection at the given time. -/
structure Collecting (R : Db → Db → Prop) (now : Dur) : Prop extends Quiet R where
  collect : ∀ db : Db, R db (db.collect now)

section
variable {R : Db → Db → Prop}

omit [Env] in
theorem stmt_steps {α : Type} (hq : Quiet R) {f : Db → Outcome SqlError α × Db} (h : ∀ db, R db (f db).2) :
    Steps R (stmt f) := by
  intro db
  unfold stmt
  split
  · exact h db
  · exact hq.faults _ _
  · exact hq.trans _ _ _ (hq.faults _ _) (h _)

theorem getRelations_steps (hq : Quiet R) (pk : PublicKey) (ty : Int) : Steps R (getRelations pk ty) :=
  stmt_steps hq fun db => hq.refl db

theorem getRelation_steps (hq : Quiet R) (a b : PublicKey) : Steps R (getRelation a b) :=
  stmt_steps hq fun db => by split <;> exact hq.refl db

theorem getAuthorizations_steps (hq : Quiet R) (pk : PublicKey) : Steps R (getAuthorizations pk) :=
  (getRelations_steps hq _ _).bind hq.trans fun _ => .pure hq.refl _

theorem getRevocations_steps (hq : Quiet R) (pk : PublicKey) : Steps R (Sqlite.getRevocations pk) :=
  (getRelations_steps hq _ _).bind hq.trans fun _ => .pure hq.refl _

theorem getRootWeightFactor_steps (hq : Quiet R) (pk : PublicKey) : Steps R (Sqlite.getRootWeightFactor pk) :=
  stmt_steps hq fun db => by
    split
    · exact hq.refl db
    · split <;> exact hq.refl db

theorem rootKeys_steps (hq : Quiet R) : Steps R Sqlite.rootKeys := stmt_steps hq fun db => hq.refl db

omit [Env] in
theorem removeExpired_steps {now : Dur} (hc : Collecting R now) : Steps R (Sqlite.removeExpired now) :=
  stmt_steps hc.toQuiet fun db => hc.collect db

theorem setRootWeightFactor_steps (hq : Quiet R) (pk : PublicKey) (wf : Nat)
    (h : ∀ db : Db, R db (db.addRoot pk wf)) : Steps R (Sqlite.setRootWeightFactor pk wf) :=
  stmt_steps hq fun db => h db

/-- The outcome of `getRelation` and the state after it. -/
theorem getRelation_run (issuedFor issuedBy : PublicKey) (db : Db) :
    ∃ fs, ((getRelation issuedFor issuedBy db).2 = { db with faults := fs }) ∧
      ∀ o, (getRelation issuedFor issuedBy db).1 = .ok o →
        (db.row? issuedFor issuedBy = none ∧ o = none) ∨
        ∃ row r, db.row? issuedFor issuedBy = some row ∧ parseRelation row = .ok r ∧ o = some r := by
  have key : ∀ db' : Db, db'.relations = db.relations →
      let f : Db → Outcome SqlError (Option TrustRelation) × Db := fun db =>
        match db.relations.find? (fun r => r.issuedBy = keyText issuedBy ∧ r.issuedFor = keyText issuedFor) with
        | none => (.ok none, db)
        | some row => (do let r ← parseRelation row; .ok (some r), db)
      (f db').2 = db' ∧ ∀ o, (f db').1 = .ok o →
        (db.row? issuedFor issuedBy = none ∧ o = none) ∨
        ∃ row r, db.row? issuedFor issuedBy = some row ∧ parseRelation row = .ok r ∧ o = some r := by
    intro db' h
    dsimp only
    rw [h]
    unfold Db.row?
    rcases db.relations.find? _ with _ | row
    · refine ⟨rfl, ?_⟩
      intro o ho
      cases ho
      exact Or.inl ⟨rfl, rfl⟩
    · refine ⟨rfl, ?_⟩
      intro o ho
      obtain ⟨r, h1, h2⟩ := Outcome.bind_eq_ok.mp ho
      cases h2
      exact Or.inr ⟨row, r, rfl, h1, rfl⟩
  unfold getRelation stmt
  split
  · rename_i hf
    exact ⟨db.faults, (key db rfl).1, (key db rfl).2⟩
  · rename_i fs hf
    refine ⟨fs, rfl, ?_⟩
    intro o ho
    cases ho
  · rename_i fs hf
    exact ⟨fs, (key { db with faults := fs } rfl).1, (key { db with faults := fs } rfl).2⟩

theorem updateRelation_steps (hq : Quiet R) (r : TrustRelation)
    (h : ∀ db : Db, db.Newer r → R db (db.put r)) : Steps R (updateRelation r) := by
  intro db
  have hi : ∀ fs, db.Newer r → R db (Sqlite.insert r { db with faults := fs }).2 := by
    intro fs hn
    unfold Sqlite.insert stmt
    rcases fs with _ | ⟨_ | _, fs⟩
    · exact hq.trans _ _ _ (hq.faults db []) (h { db with faults := [] } hn)
    · exact hq.trans _ _ _ (hq.faults db fs) (h { db with faults := fs } hn)
    · exact hq.faults _ _
  unfold updateRelation
  rw [M.bind_run]
  obtain ⟨fs, hs, ho⟩ := getRelation_run r.issuedFor r.issuedBy db
  rcases hg : getRelation r.issuedFor r.issuedBy db with ⟨o, s⟩
  rw [hg] at hs ho
  simp only at hs ho
  subst hs
  have hlt : ∀ old, o = .ok (some old) → old.issuedAt.lt r.issuedAt = true → db.Newer r := by
    intro old e hl row hrow
    rcases ho _ e with ⟨_, h2⟩ | ⟨row', r', h1, h2, h3⟩
    · cases h2
    · cases h3
      rw [hrow] at h1
      cases h1
      exact ⟨_, h2, hl⟩
  rcases o with o | _ | _ | _
  · rcases o with _ | (a | r')
    · refine hi fs ?_
      intro row hrow
      rcases ho _ rfl with ⟨h1, _⟩ | ⟨row', r', h1, h2, h3⟩
      · rw [hrow] at h1; cases h1
      · cases h3
    · dsimp only
      split
      · rename_i hl
        exact hi fs (hlt _ rfl hl)
      · exact hq.faults _ _
    · dsimp only
      split
      · rename_i hl
        exact hi fs (hlt _ rfl hl)
      · exact hq.faults _ _
  · exact hq.faults _ _
  · exact hq.faults _ _
  · exact hq.faults _ _

namespace TrustGraph

omit [Env] in
theorem storage_steps {α : Type} {x : M Db SqlError α} (h : Steps R x) : Steps R (storage x) := h.mapErr _

theorem extendAll_steps (hq : Quiet R) (cur : Chain) (auths : List Auth) :
    Steps R (extendAll (S := Db) cur auths) := by
  induction auths with
  | nil => exact .pure hq.refl _
  | cons a rest ih =>
    unfold extendAll
    split
    · exact (storage_steps (getRevocations_steps hq _)).bind hq.trans fun _ =>
        ih.bind hq.trans fun _ => .pure hq.refl _
    · exact ih

theorem bfLoop_steps (hq : Quiet R) (roots : List PublicKey) (fuel : Nat) (queue : List Chain)
    (acc : List (List Auth)) : Steps R (bfLoop (S := Db) roots fuel queue acc) := by
  induction fuel generalizing queue acc with
  | zero =>
    cases queue with
    | nil => exact .pure hq.refl _
    | cons c q => exact .lift hq.refl _
  | succ n ih =>
    cases queue with
    | nil => exact .pure hq.refl _
    | cons c q =>
      exact (storage_steps (getAuthorizations_steps hq _)).bind hq.trans fun _ =>
        (extendAll_steps hq _ _).bind hq.trans fun _ => ih _ _

theorem bfSearchPaths_steps (hq : Quiet R) (pk : PublicKey) (roots : List PublicKey) :
    Steps R (bfSearchPaths (S := Db) pk roots) := by
  intro db
  exact ((storage_steps (getAuthorizations_steps hq _)).bind hq.trans fun _ =>
    (storage_steps (getRevocations_steps hq _)).bind hq.trans fun _ => bfLoop_steps hq _ _ _ _) db

theorem getAllCerts_steps {now : Dur} (hc : Collecting R now) (pk : PublicKey) :
    Steps R (getAllCerts (S := Db) pk now) :=
  (storage_steps (removeExpired_steps hc)).bind hc.trans fun _ =>
    (storage_steps (rootKeys_steps hc.toQuiet)).bind hc.trans fun _ =>
      (bfSearchPaths_steps hc.toQuiet _ _).bind hc.trans fun _ => .lift hc.refl _

theorem getAllCertsFrom_steps {now : Dur} (hc : Collecting R now) (pk issuer : PublicKey) :
    Steps R (getAllCertsFrom (S := Db) pk issuer now) :=
  (getAllCerts_steps hc _).bind hc.trans fun _ => .pure hc.refl _

theorem weightFactorLoop_steps (hq : Quiet R) (cs : List Certificate) (wf : Nat) :
    Steps R (weightFactorLoop (S := Db) cs wf) := by
  induction cs generalizing wf with
  | nil => exact .pure hq.refl _
  | cons c cs ih =>
    unfold weightFactorLoop
    split
    · exact .fail hq.refl _
    · exact (storage_steps (getRootWeightFactor_steps hq _)).bind hq.trans fun _ =>
        (Steps.lift hq.refl _).bind hq.trans fun _ => (Steps.lift hq.refl _).bind hq.trans fun _ => ih _

theorem certificatesWeightFactor_steps (hq : Quiet R) (cs : List Certificate) :
    Steps R (certificatesWeightFactor (S := Db) cs) := by
  cases cs with
  | nil => exact .pure hq.refl _
  | cons c cs => exact (weightFactorLoop_steps hq _ _).bind hq.trans fun _ => .pure hq.refl _

theorem weight_steps {now : Dur} (hc : Collecting R now) (pk : PublicKey) :
    Steps R (weight (S := Db) pk now) :=
  (storage_steps (getRootWeightFactor_steps hc.toQuiet _)).bind hc.trans fun _ =>
    (getAllCerts_steps hc _).bind hc.trans fun _ =>
      (certificatesWeightFactor_steps hc.toQuiet _).bind hc.trans fun o => by
        cases o <;> exact .pure hc.refl _

theorem weightFrom_steps {now : Dur} (hc : Collecting R now) (pk issuer : PublicKey) :
    Steps R (weightFrom (S := Db) pk issuer now) :=
  (getAllCertsFrom_steps hc _ _).bind hc.trans fun _ =>
    (certificatesWeightFactor_steps hc.toQuiet _).bind hc.trans fun o => by
      cases o <;> exact .pure hc.refl _

theorem setRoot_steps (hq : Quiet R) (pk : PublicKey) (n : Nat)
    (h : ∀ db : Db, R db (db.addRoot pk (getWeightFactor n))) : Steps R (setRoot (S := Db) pk n) :=
  storage_steps (setRootWeightFactor_steps hq _ _ h)

theorem getNextWeight_steps {now : Dur} (hc : Collecting R now) (a b : PublicKey) :
    Steps R (getNextWeight (S := Db) a b now) :=
  (weight_steps hc _).bind hc.trans fun _ => by split <;> exact .pure hc.refl _

theorem addTrust_steps {now : Dur} (hc : Collecting R now) (t : Trust) (by' : PublicKey)
    (h : t.verify by' now = .ok () → ∀ db : Db, db.Newer (.auth ⟨t, by'⟩) → R db (db.put (.auth ⟨t, by'⟩))) :
    Steps R (addTrust (S := Db) t by' now) :=
  Steps.lift_bind hc.refl fun _ hv => (getNextWeight_steps hc _ _).bind hc.trans fun _ => by
    split
    · exact .pure hc.refl _
    · exact (storage_steps (updateRelation_steps hc.toQuiet _
        (h (Outcome.mapErr_eq_ok.mp hv)))).bind hc.trans fun _ => .pure hc.refl _

theorem addLoop_steps {now : Dur} (hc : Collecting R now) (by' : PublicKey) (ts : List Trust)
    (h : ∀ t a, t ∈ ts → t.verify a now = .ok () →
      ∀ db : Db, db.Newer (.auth ⟨t, a⟩) → R db (db.put (.auth ⟨t, a⟩))) :
    Steps R (addLoop (S := Db) now by' ts) := by
  induction ts generalizing by' with
  | nil => exact .pure hc.refl _
  | cons t ts ih =>
    exact (addTrust_steps hc _ _ (fun hv => h t by' (by simp) hv)).bind hc.trans fun _ =>
      ih _ fun t' a ht => h t' a (List.mem_cons_of_mem _ ht)

theorem add_steps {now : Dur} (hc : Collecting R now) (c : Certificate)
    (h : ∀ t a, t ∈ c.chain → t.verify a now = .ok () →
      ∀ db : Db, db.Newer (.auth ⟨t, a⟩) → R db (db.put (.auth ⟨t, a⟩))) :
    Steps R (add (S := Db) c now) := by
  unfold add
  split
  · exact .fail hc.refl _
  · exact addLoop_steps hc _ _ h

theorem revoke_steps (hq : Quiet R) (r : Revocation)
    (h : r.verify = .ok () → ∀ db : Db, db.Newer (.revocation r) → R db (db.put (.revocation r))) :
    Steps R (revoke (S := Db) r) :=
  Steps.lift_bind hq.refl fun _ hv =>
    storage_steps (updateRelation_steps hq _ (h (Outcome.mapErr_eq_ok.mp hv)))

theorem getRevocations_steps (hq : Quiet R) (pk : PublicKey) : Steps R (getRevocations (S := Db) pk) :=
  storage_steps (TG.getRevocations_steps hq _)

end TrustGraph
end

end TG
