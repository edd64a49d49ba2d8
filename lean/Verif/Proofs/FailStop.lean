/-
No SQL statement is executed after one that failed.
-/
import Verif.Proofs.Faults

namespace TG
open TG.Sqlite

/-- Of the fault schedule, the call uses up some successes only, or some successes and then one failure, in which case its outcome is an error
satisfying `F`. -/
def FailStop {ε α : Type} (F : ε → Prop) (x : M Db ε α) : Prop :=
  ∀ db, (∃ n, db.faults = List.replicate n false ++ (x db).2.faults) ∨
    (∃ n, db.faults = List.replicate n false ++ true :: (x db).2.faults ∧ ∃ e, (x db).1 = .err e ∧ F e)

namespace FailStop
variable {ε ε' α β : Type} {F : ε → Prop} {F' : ε' → Prop}

theorem pure (a : α) : FailStop F (Pure.pure a : M Db ε α) := fun _ => Or.inl ⟨0, rfl⟩
theorem lift (o : Outcome ε α) : FailStop F (M.lift o : M Db ε α) := fun _ => Or.inl ⟨0, rfl⟩
theorem fail (e : ε) : FailStop F (M.fail e : M Db ε α) := fun _ => Or.inl ⟨0, rfl⟩

theorem bind {x : M Db ε α} {f : α → M Db ε β} (hx : FailStop F x) (hf : ∀ a, FailStop F (f a)) :
    FailStop F (x >>= f) := by
  intro db
  rw [M.bind_run]
  have h := hx db
  rcases hxs : x db with ⟨o, s⟩
  rw [hxs] at h
  rcases h with ⟨n, hn⟩ | ⟨n, hn, e, he, hF⟩
  · cases o with
    | ok a =>
      rcases hf a s with ⟨m, hm⟩ | ⟨m, hm, e, he, hF⟩
      · refine Or.inl ⟨n + m, ?_⟩
        rw [hn]
        show List.replicate n false ++ s.faults = _
        rw [hm, List.replicate_add, List.append_assoc]
      · refine Or.inr ⟨n + m, ?_, e, he, hF⟩
        rw [hn]
        show List.replicate n false ++ s.faults = _
        rw [hm, List.replicate_add, List.append_assoc]
    | err e => exact Or.inl ⟨n, hn⟩
    | panic => exact Or.inl ⟨n, hn⟩
    | diverge => exact Or.inl ⟨n, hn⟩
  · simp only at he
    subst he
    exact Or.inr ⟨n, hn, e, rfl, hF⟩

theorem mapErr {x : M Db ε α} (hx : FailStop F x) (g : ε → ε') (hg : ∀ e, F e → F' (g e)) :
    FailStop F' (x.mapErr g) := by
  intro db
  rw [M.mapErr_run]
  rcases hx db with h | ⟨n, hn, e, he, hF⟩
  · exact Or.inl h
  · exact Or.inr ⟨n, hn, g e, by rw [he]; rfl, hg e hF⟩

end FailStop

variable [Env]

omit [Env] in
theorem stmt_failStop {α : Type} {f : Db → Outcome SqlError α × Db} (h : ∀ db, (f db).2.faults = db.faults) :
    FailStop IsSqlite (stmt f) := by
  intro db
  unfold stmt
  split
  · rename_i hf
    exact Or.inl ⟨0, (h db).symm⟩
  · rename_i fs hf
    exact Or.inr ⟨0, hf, _, rfl, rfl⟩
  · rename_i fs hf
    exact Or.inl ⟨1, by rw [hf, h]; rfl⟩

theorem getRelations_failStop (pk : PublicKey) (ty : Int) : FailStop IsSqlite (getRelations pk ty) :=
  stmt_failStop fun _ => rfl

theorem getRelation_failStop (a b : PublicKey) : FailStop IsSqlite (getRelation a b) :=
  stmt_failStop fun db => by split <;> rfl

theorem getAuthorizations_failStop (pk : PublicKey) : FailStop IsSqlite (getAuthorizations pk) :=
  (getRelations_failStop _ _).bind fun _ => .pure _

theorem getRevocations_failStop (pk : PublicKey) : FailStop IsSqlite (Sqlite.getRevocations pk) :=
  (getRelations_failStop _ _).bind fun _ => .pure _

theorem insert_failStop (r : TrustRelation) : FailStop IsSqlite (Sqlite.insert r) := stmt_failStop fun _ => rfl

theorem updateRelation_failStop (r : TrustRelation) : FailStop IsSqlite (updateRelation r) := by
  refine (getRelation_failStop _ _).bind fun o => ?_
  rcases o with _ | (a | r')
  · exact insert_failStop r
  · dsimp only; split
    · exact insert_failStop r
    · exact .pure _
  · dsimp only; split
    · exact insert_failStop r
    · exact .pure _

theorem getRootWeightFactor_failStop (pk : PublicKey) : FailStop IsSqlite (Sqlite.getRootWeightFactor pk) :=
  stmt_failStop fun db => by
    split
    · rfl
    · split <;> rfl

theorem setRootWeightFactor_failStop (pk : PublicKey) (wf : Nat) : FailStop IsSqlite (Sqlite.setRootWeightFactor pk wf) :=
  stmt_failStop fun _ => rfl

theorem rootKeys_failStop : FailStop IsSqlite Sqlite.rootKeys := stmt_failStop fun _ => rfl

omit [Env] in
theorem removeExpired_failStop (now : Dur) : FailStop IsSqlite (Sqlite.removeExpired now) := stmt_failStop fun _ => rfl

namespace TrustGraph

omit [Env] in
theorem storage_failStop {α : Type} {x : M Db SqlError α} (h : FailStop IsSqlite x) : FailStop IsInternal (storage x) :=
  h.mapErr _ fun _ _ => rfl

theorem extendAll_failStop (cur : Chain) (auths : List Auth) : FailStop IsInternal (extendAll (S := Db) cur auths) := by
  induction auths with
  | nil => exact .pure _
  | cons a rest ih =>
    unfold extendAll
    split
    · exact (storage_failStop (TG.getRevocations_failStop _)).bind fun _ => ih.bind fun _ => .pure _
    · exact ih

theorem bfLoop_failStop (roots : List PublicKey) (fuel : Nat) (queue : List Chain) (term : List (List Auth)) :
    FailStop IsInternal (bfLoop (S := Db) roots fuel queue term) := by
  induction fuel generalizing queue term with
  | zero =>
    cases queue
    · exact .pure _
    · exact .lift _
  | succ fuel ih =>
    cases queue
    · exact .pure _
    · exact (storage_failStop (getAuthorizations_failStop _)).bind fun _ =>
        (extendAll_failStop _ _).bind fun _ => ih _ _

theorem bfSearchPaths_failStop (pk : PublicKey) (roots : List PublicKey) :
    FailStop IsInternal (bfSearchPaths (S := Db) pk roots) := fun db =>
  ((storage_failStop (getAuthorizations_failStop pk)).bind fun _ =>
    (storage_failStop (TG.getRevocations_failStop pk)).bind fun _ => bfLoop_failStop _ _ _ _) db

theorem getAllCerts_failStop (pk : PublicKey) (now : Dur) : FailStop IsInternal (getAllCerts (S := Db) pk now) :=
  (storage_failStop (removeExpired_failStop _)).bind fun _ => (storage_failStop rootKeys_failStop).bind fun _ =>
    (bfSearchPaths_failStop _ _).bind fun _ => .lift _

theorem getAllCertsFrom_failStop (pk issuer : PublicKey) (now : Dur) :
    FailStop IsInternal (getAllCertsFrom (S := Db) pk issuer now) :=
  (getAllCerts_failStop _ _).bind fun _ => .pure _

theorem weightFactorLoop_failStop (cs : List Certificate) (wf : Nat) :
    FailStop IsInternal (weightFactorLoop (S := Db) cs wf) := by
  induction cs generalizing wf with
  | nil => exact .pure _
  | cons c cs ih =>
    unfold weightFactorLoop
    split
    · exact .fail _
    · exact (storage_failStop (getRootWeightFactor_failStop _)).bind fun _ =>
        (FailStop.lift _).bind fun _ => (FailStop.lift _).bind fun _ => ih _

theorem certificatesWeightFactor_failStop (cs : List Certificate) :
    FailStop IsInternal (certificatesWeightFactor (S := Db) cs) := by
  unfold certificatesWeightFactor
  split
  · exact .pure _
  · exact (weightFactorLoop_failStop _ _).bind fun _ => .pure _

theorem weight_failStop (pk : PublicKey) (now : Dur) : FailStop IsInternal (weight (S := Db) pk now) :=
  (storage_failStop (getRootWeightFactor_failStop _)).bind fun _ => (getAllCerts_failStop _ _).bind fun _ =>
    (certificatesWeightFactor_failStop _).bind fun _ => by split <;> exact .pure _

theorem weightFrom_failStop (pk issuer : PublicKey) (now : Dur) : FailStop IsInternal (weightFrom (S := Db) pk issuer now) :=
  (getAllCertsFrom_failStop _ _ _).bind fun _ =>
    (certificatesWeightFactor_failStop _).bind fun _ => by split <;> exact .pure _

theorem setRoot_failStop (pk : PublicKey) (n : Nat) : FailStop IsInternal (setRoot (S := Db) pk n) :=
  storage_failStop (setRootWeightFactor_failStop _ _)

theorem getNextWeight_failStop (a b : PublicKey) (now : Dur) : FailStop IsInternal (getNextWeight (S := Db) a b now) :=
  (weight_failStop _ _).bind fun _ => by split <;> exact .pure _

theorem addTrust_failStop (t : Trust) (by' : PublicKey) (now : Dur) : FailStop IsInternal (addTrust (S := Db) t by' now) :=
  (FailStop.lift _).bind fun _ => (getNextWeight_failStop _ _ _).bind fun _ => by
    split
    · exact .pure _
    · exact (storage_failStop (updateRelation_failStop _)).bind fun _ => .pure _

theorem addLoop_failStop (now : Dur) (by' : PublicKey) (ts : List Trust) : FailStop IsInternal (addLoop (S := Db) now by' ts) := by
  induction ts generalizing by' with
  | nil => exact .pure _
  | cons t ts ih => exact (addTrust_failStop _ _ _).bind fun _ => ih _

theorem add_failStop (c : Certificate) (now : Dur) : FailStop IsInternal (add (S := Db) c now) := by
  unfold add
  split
  · exact .fail _
  · exact addLoop_failStop _ _ _

theorem revoke_failStop (r : Revocation) : FailStop IsInternal (revoke (S := Db) r) :=
  (FailStop.lift _).bind fun _ => storage_failStop (updateRelation_failStop _)

theorem getRevocations_failStop (pk : PublicKey) : FailStop IsInternal (getRevocations (S := Db) pk) :=
  storage_failStop (TG.getRevocations_failStop _)

end TrustGraph

end TG
