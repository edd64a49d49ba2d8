/-
Every library call is transparent to SQL faults.
-/
import Verif.Proofs.Monad

namespace TG
open TG.Sqlite

/-- The error reported for a failed statement by the storage. -/
def IsSqlite (e : SqlError) : Prop := e = .sqliteError
/-- The error reported for a failed statement by the library. -/
def IsInternal (e : TrustGraphError) : Prop := e = .internalStorageError

theorem stmt_transparent {α : Type} {f : Db → Outcome SqlError α × Db}
    (h : ∀ db, (f db).1 = (f db.calm).1 ∧ (f db).2.calm = (f db.calm).2) :
    Transparent IsSqlite (stmt f) := by
  intro db
  unfold stmt
  rcases hf : db.faults with _ | ⟨b, fs⟩
  · exact Or.inr (h db)
  · cases b
    · exact Or.inr (h { db with faults := fs })
    · exact Or.inl ⟨_, rfl, rfl⟩

variable [Env]

theorem getRelations_transparent (pk : PublicKey) (ty : Int) :
    Transparent IsSqlite (getRelations pk ty) :=
  stmt_transparent fun _ => ⟨rfl, rfl⟩

theorem getRelation_transparent (a b : PublicKey) : Transparent IsSqlite (getRelation a b) :=
  stmt_transparent fun db => by
    simp only [Db.calm]
    split <;> exact ⟨rfl, rfl⟩

theorem getAuthorizations_transparent (pk : PublicKey) : Transparent IsSqlite (getAuthorizations pk) :=
  (getRelations_transparent _ _).bind fun _ => .pure _

theorem getRevocations_transparent (pk : PublicKey) : Transparent IsSqlite (Sqlite.getRevocations pk) :=
  (getRelations_transparent _ _).bind fun _ => .pure _

theorem insert_transparent (r : TrustRelation) : Transparent IsSqlite (Sqlite.insert r) :=
  stmt_transparent fun _ => ⟨rfl, rfl⟩

theorem updateRelation_transparent (r : TrustRelation) : Transparent IsSqlite (updateRelation r) := by
  refine (getRelation_transparent _ _).bind fun o => ?_
  rcases o with _ | (a | r')
  · exact insert_transparent _
  · dsimp only; split
    · exact insert_transparent _
    · exact .pure _
  · dsimp only; split
    · exact insert_transparent _
    · exact .pure _

theorem getRootWeightFactor_transparent (pk : PublicKey) :
    Transparent IsSqlite (Sqlite.getRootWeightFactor pk) :=
  stmt_transparent fun db => by
    simp only [Db.calm]
    split
    · exact ⟨rfl, rfl⟩
    · split <;> exact ⟨rfl, rfl⟩

theorem setRootWeightFactor_transparent (pk : PublicKey) (wf : Nat) :
    Transparent IsSqlite (Sqlite.setRootWeightFactor pk wf) :=
  stmt_transparent fun _ => ⟨rfl, rfl⟩

theorem rootKeys_transparent : Transparent IsSqlite Sqlite.rootKeys :=
  stmt_transparent fun _ => ⟨rfl, rfl⟩

omit [Env] in
theorem removeExpired_transparent (now : Dur) : Transparent IsSqlite (Sqlite.removeExpired now) :=
  stmt_transparent fun _ => ⟨rfl, rfl⟩

namespace TrustGraph

omit [Env] in
theorem storage_transparent {α : Type} {x : M Db SqlError α} (h : Transparent IsSqlite x) :
    Transparent IsInternal (storage x) :=
  h.mapErr _ fun _ _ => rfl

theorem extendAll_transparent (cur : Chain) (auths : List Auth) :
    Transparent IsInternal (extendAll (S := Db) cur auths) := by
  induction auths with
  | nil => exact .pure _
  | cons a rest ih =>
    unfold extendAll
    split
    · exact (storage_transparent (getRevocations_transparent _)).bind fun _ => ih.bind fun _ => .pure _
    · exact ih

theorem bfLoop_transparent (roots : List PublicKey) (fuel : Nat) (queue : List Chain)
    (acc : List (List Auth)) : Transparent IsInternal (bfLoop (S := Db) roots fuel queue acc) := by
  induction fuel generalizing queue acc with
  | zero =>
    cases queue with
    | nil => exact .pure _
    | cons c q => exact .lift _
  | succ n ih =>
    cases queue with
    | nil => exact .pure _
    | cons c q =>
      exact (storage_transparent (getAuthorizations_transparent _)).bind fun _ =>
        (extendAll_transparent _ _).bind fun _ => ih _ _

theorem bfSearchPaths_transparent (pk : PublicKey) (roots : List PublicKey) :
    Transparent IsInternal (bfSearchPaths (S := Db) pk roots) := by
  intro db
  exact ((storage_transparent (getAuthorizations_transparent _)).bind fun _ =>
    (storage_transparent (getRevocations_transparent _)).bind fun _ => bfLoop_transparent _ _ _ _) db

theorem getAllCerts_transparent (pk : PublicKey) (now : Dur) :
    Transparent IsInternal (getAllCerts (S := Db) pk now) :=
  (storage_transparent (removeExpired_transparent _)).bind fun _ =>
    (storage_transparent rootKeys_transparent).bind fun _ =>
      (bfSearchPaths_transparent _ _).bind fun _ => .lift _

theorem getAllCertsFrom_transparent (pk issuer : PublicKey) (now : Dur) :
    Transparent IsInternal (getAllCertsFrom (S := Db) pk issuer now) :=
  (getAllCerts_transparent _ _).bind fun _ => .pure _

theorem weightFactorLoop_transparent (cs : List Certificate) (wf : Nat) :
    Transparent IsInternal (weightFactorLoop (S := Db) cs wf) := by
  induction cs generalizing wf with
  | nil => exact .pure _
  | cons c cs ih =>
    unfold weightFactorLoop
    split
    · exact .fail _
    · exact (storage_transparent (getRootWeightFactor_transparent _)).bind fun _ =>
        (Transparent.lift _).bind fun _ => (Transparent.lift _).bind fun _ => ih _

theorem certificatesWeightFactor_transparent (cs : List Certificate) :
    Transparent IsInternal (certificatesWeightFactor (S := Db) cs) := by
  cases cs with
  | nil => exact .pure _
  | cons c cs => exact (weightFactorLoop_transparent _ _).bind fun _ => .pure _

theorem weight_transparent (pk : PublicKey) (now : Dur) : Transparent IsInternal (weight (S := Db) pk now) :=
  (storage_transparent (getRootWeightFactor_transparent _)).bind fun _ =>
    (getAllCerts_transparent _ _).bind fun _ =>
      (certificatesWeightFactor_transparent _).bind fun o => by cases o <;> exact .pure _

theorem weightFrom_transparent (pk issuer : PublicKey) (now : Dur) :
    Transparent IsInternal (weightFrom (S := Db) pk issuer now) :=
  (getAllCertsFrom_transparent _ _ _).bind fun _ =>
    (certificatesWeightFactor_transparent _).bind fun o => by cases o <;> exact .pure _

theorem setRoot_transparent (pk : PublicKey) (n : Nat) : Transparent IsInternal (setRoot (S := Db) pk n) :=
  storage_transparent (setRootWeightFactor_transparent _ _)

theorem getNextWeight_transparent (a b : PublicKey) (now : Dur) :
    Transparent IsInternal (getNextWeight (S := Db) a b now) :=
  (weight_transparent _ _).bind fun _ => by split <;> exact .pure _

theorem addTrust_transparent (t : Trust) (by' : PublicKey) (now : Dur) :
    Transparent IsInternal (addTrust (S := Db) t by' now) :=
  (Transparent.lift _).bind fun _ => (getNextWeight_transparent _ _ _).bind fun _ => by
    split
    · exact .pure _
    · exact (storage_transparent (updateRelation_transparent _)).bind fun _ => .pure _

theorem addLoop_transparent (now : Dur) (by' : PublicKey) (ts : List Trust) :
    Transparent IsInternal (addLoop (S := Db) now by' ts) := by
  induction ts generalizing by' with
  | nil => exact .pure _
  | cons t ts ih => exact (addTrust_transparent _ _ _).bind fun _ => ih _

theorem add_transparent (c : Certificate) (now : Dur) : Transparent IsInternal (add (S := Db) c now) := by
  unfold add
  split
  · exact .fail _
  · exact addLoop_transparent _ _ _

theorem revoke_transparent (r : Revocation) : Transparent IsInternal (revoke (S := Db) r) :=
  (Transparent.lift _).bind fun _ => storage_transparent (updateRelation_transparent _)

theorem getRevocations_transparent (pk : PublicKey) :
    Transparent IsInternal (getRevocations (S := Db) pk) :=
  storage_transparent (TG.getRevocations_transparent _)

end TrustGraph
end TG
