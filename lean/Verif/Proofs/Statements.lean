/-
Exactly how many SQL statements a query executes.
-/
import Verif.Proofs.Cost
import Verif.Proofs.Certs
import Verif.Spec.Trail

namespace TG

/-- The database with a schedule of failing statements. -/
def Db.under (db : Db) (fs : List Bool) : Db := { db with faults := fs }

/-- In `db` the call executes exactly `n` statements if none fails, answers `a` and leaves `db'`.  It notices the failure of any of the `n`. -/
structure Executes {α : Type} (x : M Db TrustGraphError α) (db : Db) (n : Nat) (a : α) (db' : Db) : Prop where
  done : ∀ fs, x (db.under (List.replicate n false ++ fs)) = (.ok a, db'.under fs)
  stops : ∀ k < n, ∀ fs, (x (db.under (List.replicate k false ++ true :: fs))).1 = .err .internalStorageError
  calm : x (db.under []) = (.ok a, db'.under [])

namespace Executes
variable {α β : Type} {db db' db'' : Db} {n m : Nat}

theorem pure (a : α) : Executes (Pure.pure a) db 0 a db := ⟨fun _ => rfl, fun _ h => absurd h (Nat.not_lt_zero _), rfl⟩

theorem bind {x : M Db TrustGraphError α} {f : α → M Db TrustGraphError β} {a : α} {b : β} (hx : Executes x db n a db') (hf : Executes (f a) db' m b db'') :
    Executes (x >>= f) db (n + m) b db'' where
  done fs := by
    rw [List.replicate_add, List.append_assoc, M.bind_run_ok (hx.done _), hf.done]
  stops k hk fs := by
    by_cases h : k < n
    · have := hx.stops k h fs
      rw [M.bind_run]
      rcases hs : x (db.under (List.replicate k false ++ true :: fs)) with ⟨o, s⟩
      rw [hs] at this
      simp only at this
      rw [this]
    · have e : List.replicate k false ++ true :: fs = List.replicate n false ++ (List.replicate (k - n) false ++ true :: fs) := by
        rw [← List.append_assoc, ← List.replicate_add, Nat.add_sub_cancel' (by omega)]
      rw [e, M.bind_run_ok (hx.done _)]
      exact hf.stops _ (by omega) _
  calm := by rw [M.bind_run_ok hx.calm, hf.calm]

/-- A single statement. -/
theorem stmt {f : Db → Outcome SqlError α × Db} {a : α} (h : ∀ fs, f (db.under fs) = (.ok a, db'.under fs)) :
    Executes (TrustGraph.storage (S := Db) (Sqlite.stmt f)) db 1 a db' where
  done fs := Search.storage_ok (h fs)
  stops k hk fs := by
    obtain rfl : k = 0 := by omega
    rfl
  calm := Search.storage_ok (h [])

theorem mono {x : M Db TrustGraphError α} {a : α} (h : Executes x db n a db') (e : n = m) : Executes x db m a db' := e ▸ h

end Executes

variable [Env]
open Search

/-- Reading a view from the database, by one statement each. -/
structure Counts (v : View) (db : Db) : Prop where
  auths : ∀ pk, Executes (TrustGraph.storage (S := Db) (Storage.getAuthorizations pk)) db 1 (v.auths pk) db
  revs : ∀ pk, Executes (TrustGraph.storage (S := Db) (Storage.getRevocations pk)) db 1 (v.revs pk) db

namespace Counts
variable {v : View} {db : Db}

theorem extendAll (h : Counts v db) (c : Chain) (l : List Auth) :
    Executes (TrustGraph.extendAll c l) db (l.filter (fun a => c.canBeExtendedBy a.issuedBy)).length
      ((l.filter (fun a => c.canBeExtendedBy a.issuedBy)).map (fun a => (c.addRevocations (v.revs a.issuedBy)).push a)) db := by
  induction l with
  | nil => exact .pure _
  | cons a l ih =>
    unfold TrustGraph.extendAll
    by_cases hc : c.canBeExtendedBy a.issuedBy = true
    · rw [if_pos hc, List.filter_cons_of_pos (by simpa using hc)]
      refine Executes.mono (n := 1 + ((l.filter (fun a => c.canBeExtendedBy a.issuedBy)).length + 0)) ?_ (by rw [List.length_cons]; omega)
      exact (h.revs a.issuedBy).bind (ih.bind (.pure _))
    · rw [if_neg hc, List.filter_cons_of_neg (by simpa using hc)]
      exact ih

/-- What the search costs from a given queue. -/
def loopCost (v : View) : Nat → List Chain → Nat
  | 0, _ => 0
  | _ + 1, [] => 0
  | fuel + 1, cur :: queue => 1 + (ext v cur).length + loopCost v fuel (queue ++ ext v cur)

theorem bfLoop (h : Counts v db) (roots : List PublicKey) (fuel : Nat) (q : List Chain) (acc r : List (List Auth)) (hl : loop v roots fuel q acc = some r) :
    Executes (TrustGraph.bfLoop roots fuel q acc) db (loopCost v fuel q) r db := by
  induction fuel generalizing q acc with
  | zero =>
    cases q with
    | nil => cases hl; exact .pure _
    | cons c q => cases hl
  | succ fuel ih =>
    cases q with
    | nil => cases hl; exact .pure _
    | cons c q =>
      rw [TrustGraph.bfLoop]
      refine ((h.auths _).bind ((h.extendAll c _).bind (ih _ _ hl))).mono ?_
      rw [loopCost]
      unfold ext
      rw [List.length_map]
      omega

theorem loopCost_step (q r : List Chain) (f : Nat) :
    loopCost v (q.length + f) (q ++ r) = q.length + (q.flatMap (ext v)).length + loopCost v f (r ++ q.flatMap (ext v)) := by
  induction q generalizing r with
  | nil => simp
  | cons c q ih =>
    have : (c :: q).length + f = (q.length + f) + 1 := by simp only [List.length_cons]; omega
    rw [this, List.cons_append, loopCost, List.append_assoc, ih, List.flatMap_cons, List.append_assoc, List.length_append, List.length_cons]
    omega

theorem loopCost_levels (target : PublicKey) (m f : Nat) :
    loopCost v (total v target m + f) (level v target 0) + (level v target 0).length = 2 * total v target m + (level v target m).length + loopCost v f (level v target m) := by
  induction m generalizing f with
  | zero => simp only [total, Nat.zero_add]; omega
  | succ m ih =>
    have h1 := ih ((level v target m).length + f)
    have h2 := loopCost_step (v := v) (level v target m) [] f
    rw [List.append_nil, List.nil_append] at h2
    rw [total, Nat.add_assoc, h1, h2]
    rw [level]
    omega

/-- The whole search: two statements to begin with, two for each chain, one less for those it begins with. -/
theorem bfSearchPaths (h : Counts v db) (hv : Lawful v db.relations.length) (roots : List PublicKey) (target : PublicKey) :
    Executes (TrustGraph.bfSearchPaths target roots) db (2 + (2 * total v target db.relations.length - (v.auths target).length))
      (paths v db.relations.length roots target) db := by
  have key : Executes (do
      let nodeAuths ← TrustGraph.storage (S := Db) (Storage.getAuthorizations target)
      let nodeRevocations ← TrustGraph.storage (S := Db) (Storage.getRevocations target)
      TrustGraph.bfLoop roots ((db.relations.length + 1) ^ (db.relations.length + 1) + 1) (nodeAuths.map (fun a => Chain.new a nodeRevocations)) []) db
      (2 + (2 * total v target db.relations.length - (v.auths target).length)) (paths v db.relations.length roots target) db := by
    refine ((h.auths target).bind ((h.revs target).bind (h.bfLoop roots _ _ _ _ (loop_result hv roots target)))).mono ?_
    obtain ⟨f, hf⟩ := fuel_enough hv target
    have h1 := loopCost_levels (v := v) target db.relations.length f
    have h0 : (level v target 0).length = (v.auths target).length := by rw [level, List.length_map]
    have h2 : loopCost v f [] = 0 := by cases f <;> rfl
    rw [level_bound_nil hv, h0, h2, ← hf] at h1
    simp only [List.length_nil] at h1
    omega
  exact ⟨key.done, key.stops, key.calm⟩

end Counts

namespace Db
variable {db : Db}

theorem counts (hh : db.Healthy) : Counts db.view db where
  auths pk := by
    obtain ⟨rs, h1, h2, -⟩ := parseRows_toRow _ (rows_of_rowsFor hh pk authType)
    have hs : Executes (TrustGraph.storage (S := Db) (Sqlite.getRelations pk authType)) db 1 rs db := .stmt fun fs => by
      change (Sqlite.parseRows (db.rowsFor pk authType), _) = _
      rw [h1]
    constructor
    · intro fs
      refine storage_ok ?_
      show Sqlite.getAuthorizations pk _ = _
      unfold Sqlite.getAuthorizations
      rw [M.bind_run_ok (storage_ok_inv (hs.done fs)), M.pure_run]
      exact congrArg (fun l => (Outcome.ok l, db.under fs)) h2
    · intro k hk fs
      obtain rfl : k = 0 := by omega
      rfl
    · refine storage_ok ?_
      show Sqlite.getAuthorizations pk _ = _
      unfold Sqlite.getAuthorizations
      rw [M.bind_run_ok (storage_ok_inv hs.calm), M.pure_run]
      exact congrArg (fun l => (Outcome.ok l, db.under [])) h2
  revs pk := by
    obtain ⟨rs, h1, -, h3⟩ := parseRows_toRow _ (rows_of_rowsFor hh pk revocationType)
    have hs : Executes (TrustGraph.storage (S := Db) (Sqlite.getRelations pk revocationType)) db 1 rs db := .stmt fun fs => by
      change (Sqlite.parseRows (db.rowsFor pk revocationType), _) = _
      rw [h1]
    constructor
    · intro fs
      refine storage_ok ?_
      show Sqlite.getRevocations pk _ = _
      unfold Sqlite.getRevocations
      rw [M.bind_run_ok (storage_ok_inv (hs.done fs)), M.pure_run]
      exact congrArg (fun l => (Outcome.ok l, db.under fs)) h3
    · intro k hk fs
      obtain rfl : k = 0 := by omega
      rfl
    · refine storage_ok ?_
      show Sqlite.getRevocations pk _ = _
      unfold Sqlite.getRevocations
      rw [M.bind_run_ok (storage_ok_inv hs.calm), M.pure_run]
      exact congrArg (fun l => (Outcome.ok l, db.under [])) h3

theorem getAllCerts_executes (hh : db.Healthy) (target : PublicKey) (now : Dur) :
    Executes (TrustGraph.getAllCerts target now) db
      (4 + (2 * total (db.collect now).view target (db.collect now).relations.length - ((db.collect now).view.auths target).length))
      (db.certs target now) (db.collect now) := by
  have hc := hh.collect now
  have h1 : Executes (TrustGraph.storage (S := Db) (Storage.removeExpired now)) db 1 () (db.collect now) := .stmt fun _ => rfl
  have h2 : Executes (TrustGraph.storage (S := Db) Storage.rootKeys) (db.collect now) 1 (db.collect now).rootList (db.collect now) := .stmt fun fs => by
    have := rootKeys_eq (db := (db.collect now).under []) ⟨hc.rows, hc.unique, hc.roots⟩ rfl
    exact congrArg (fun x => (x, (db.collect now).under fs)) (congrArg Prod.fst this)
  have h3 := (counts hc).bfSearchPaths (view_lawful hc) (db.collect now).rootList target
  have h4 : TrustGraph.filterShort ((paths (db.collect now).view (db.collect now).relations.length (db.collect now).rootList target).map TrustGraph.toCertificate) =
      .ok (db.certs target now) :=
    filterShort_id (db.certs target now) (fun c hc' => by
      have := ((mem_certs_iff hh target now c).mp hc').linked.long
      omega)
  have h5 : Executes (M.lift (TrustGraph.filterShort ((paths (db.collect now).view (db.collect now).relations.length (db.collect now).rootList target).map
      TrustGraph.toCertificate))) (db.collect now) 0 (db.certs target now) (db.collect now) := by
    rw [h4]
    exact .pure _
  exact (h1.bind (h2.bind (h3.bind h5))).mono (by omega)

end Db
end TG
