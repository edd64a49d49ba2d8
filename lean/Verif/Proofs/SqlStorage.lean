/-
The statements of storage_impl.rs, read and executed by the interpreter of Model/Sql, do what the model Model/Sqlite says.
-/
import Verif.Model.SqlStorage
import Verif.Proofs.Simulation

namespace TG
open Sql

namespace SqlStorage

/-! ### The texts -/

def relationColumns : List (Str × Affinity) :=
  [("relation_type".toList, .integer), ("issued_for".toList, .text), ("issued_by".toList, .text),
    ("issued_at".toList, .integer), ("expires_at".toList, .integer), ("signature".toList, .text)]

def relationNames : List Str := relationColumns.map (·.1)

def rootColumns : List (Str × Affinity) := [("public_key".toList, .text), ("weight_factor".toList, .integer)]

def rootNames : List Str := rootColumns.map (·.1)

def relationsTable (rows : List RelRow) : Table :=
  ⟨relationColumns, ["issued_for".toList, "issued_by".toList], rows.map ofRelRow⟩

def rootsTable (rows : List RootRow) : Table := ⟨rootColumns, [], rows.map ofRootRow⟩

/-- The file that holds these tables. -/
def file (db : Db) : File :=
  ⟨[("trust_relations".toList, relationsTable db.relations), ("roots".toList, rootsTable db.roots)], db.faults⟩

/-- No two rows with the same primary key. -/
def Keyed (db : Db) : Prop := (db.relations.map (fun r => (r.issuedFor, r.issuedBy))).Nodup

set_option maxRecDepth 100000

theorem prepare_selectRelations : prepare selectRelations = some (.select relationNames "trust_relations".toList
    [⟨"issued_for".toList, ['=']⟩, ⟨"relation_type".toList, ['=']⟩]) := by decide +kernel

theorem prepare_selectRelation : prepare selectRelation = some (.select relationNames "trust_relations".toList
    [⟨"issued_by".toList, ['=']⟩, ⟨"issued_for".toList, ['=']⟩]) := by decide +kernel

theorem prepare_insertRelation : prepare insertRelation = some (.insertOrReplace "trust_relations".toList 6) := by decide +kernel

theorem prepare_selectRoot : prepare selectRoot = some (.select rootNames "roots".toList [⟨"public_key".toList, ['=']⟩]) := by
  decide +kernel

theorem prepare_insertRoot : prepare insertRoot = some (.insertOrReplace "roots".toList 2) := by decide +kernel

theorem prepare_selectRoots : prepare selectRoots = some (.select rootNames "roots".toList []) := by decide +kernel

theorem prepare_deleteExpired : prepare deleteExpired = some (.delete "trust_relations".toList
    [⟨"expires_at".toList, ['<', '=']⟩, ⟨"relation_type".toList, ['=']⟩]) := by decide +kernel

theorem prepare_createRelations : prepare createRelations = some (.create "trust_relations".toList
    [("relation_type".toList, "INTEGER".toList), ("issued_for".toList, "TEXT".toList), ("issued_by".toList, "TEXT".toList),
      ("issued_at".toList, "INTEGER".toList), ("expires_at".toList, "INTEGER".toList), ("signature".toList, "TEXT".toList)]
    ["issued_for".toList, "issued_by".toList]) := by decide +kernel

theorem prepare_createRoots : prepare createRoots = some (.create "roots".toList
    [("public_key".toList, "TEXT".toList), ("weight_factor".toList, "INTEGER".toList)] []) := by decide +kernel

/-! ### Columns -/

section
variable (rows : List RelRow)

theorem column_type : (relationsTable rows).column "relation_type".toList = some (0, .integer) := by
  change Table.column.go "relation_type".toList relationColumns 0 = some (0, .integer); decide +kernel
theorem column_for : (relationsTable rows).column "issued_for".toList = some (1, .text) := by
  change Table.column.go "issued_for".toList relationColumns 0 = some (1, .text); decide +kernel
theorem column_by : (relationsTable rows).column "issued_by".toList = some (2, .text) := by
  change Table.column.go "issued_by".toList relationColumns 0 = some (2, .text); decide +kernel
theorem column_at : (relationsTable rows).column "issued_at".toList = some (3, .integer) := by
  change Table.column.go "issued_at".toList relationColumns 0 = some (3, .integer); decide +kernel
theorem column_expires : (relationsTable rows).column "expires_at".toList = some (4, .integer) := by
  change Table.column.go "expires_at".toList relationColumns 0 = some (4, .integer); decide +kernel
theorem column_signature : (relationsTable rows).column "signature".toList = some (5, .text) := by
  change Table.column.go "signature".toList relationColumns 0 = some (5, .text); decide +kernel
end

theorem column_key (rows : List RootRow) : (rootsTable rows).column "public_key".toList = some (0, .text) := by
  change Table.column.go "public_key".toList rootColumns 0 = some (0, .text); decide +kernel
theorem column_factor (rows : List RootRow) : (rootsTable rows).column "weight_factor".toList = some (1, .integer) := by
  change Table.column.go "weight_factor".toList rootColumns 0 = some (1, .integer); decide +kernel

/-! ### Rows -/

theorem relations_for_type (rows : List RelRow) (k : Str) (t : Int) (r : RelRow) :
    (relationsTable rows).all [⟨"issued_for".toList, ['=']⟩, ⟨"relation_type".toList, ['=']⟩] [.string k, .integer t] (ofRelRow r)
      = decide (r.issuedFor = k ∧ r.relationType = t) := by
  simp only [Table.all, Table.cond, column_for, column_type, ofRelRow, List.getElem?_cons_succ, List.getElem?_cons_zero, if_true,
    Affinity.apply, Value.eq, Bool.and_true]
  simp [Bool.decide_and]

theorem relations_by_for (rows : List RelRow) (b f : Str) (r : RelRow) :
    (relationsTable rows).all [⟨"issued_by".toList, ['=']⟩, ⟨"issued_for".toList, ['=']⟩] [.string b, .string f] (ofRelRow r)
      = decide (r.issuedBy = b ∧ r.issuedFor = f) := by
  simp only [Table.all, Table.cond, column_for, column_by, ofRelRow, List.getElem?_cons_succ, List.getElem?_cons_zero, if_true,
    Affinity.apply, Value.eq, Bool.and_true]
  simp [Bool.decide_and]

theorem relations_expired (rows : List RelRow) (now t : Int) (r : RelRow) :
    (relationsTable rows).all [⟨"expires_at".toList, ['<', '=']⟩, ⟨"relation_type".toList, ['=']⟩] [.integer now, .integer t] (ofRelRow r)
      = decide (r.expiresAt ≤ now ∧ r.relationType = t) := by
  simp only [Table.all, Table.cond, column_expires, column_type, ofRelRow, List.getElem?_cons_succ, List.getElem?_cons_zero, if_true,
    Affinity.apply, Value.eq, Value.le, Bool.and_true, if_neg (by decide : ¬ (['<', '='] : Str) = ['='])]
  simp [Bool.decide_and]

theorem roots_key (rows : List RootRow) (k : Str) (r : RootRow) :
    (rootsTable rows).all [⟨"public_key".toList, ['=']⟩] [.string k] (ofRootRow r) = decide (r.publicKey = k) := by
  simp only [Table.all, Table.cond, column_key, ofRootRow, List.getElem?_cons_zero, if_true,
    Affinity.apply, Value.eq, Bool.and_true]
  simp

theorem project_relation (rows : List RelRow) (r : RelRow) :
    (relationsTable rows).project relationNames (ofRelRow r) = ofRelRow r := by
  change List.filterMap _ ["relation_type".toList, "issued_for".toList, "issued_by".toList, "issued_at".toList,
    "expires_at".toList, "signature".toList] = _
  simp only [List.filterMap_cons, column_type, column_for, column_by, column_at, column_expires, column_signature, Option.bind_some]
  rfl

theorem project_root (rows : List RootRow) (r : RootRow) :
    (rootsTable rows).project rootNames (ofRootRow r) = ofRootRow r := by
  change List.filterMap _ ["public_key".toList, "weight_factor".toList] = _
  simp only [List.filterMap_cons, column_key, column_factor, Option.bind_some]
  rfl

theorem sameKey_relation (rows : List RelRow) (r r' : RelRow) :
    (relationsTable rows).sameKey (ofRelRow r) (ofRelRow r') = decide (r.issuedFor = r'.issuedFor ∧ r.issuedBy = r'.issuedBy) := by
  unfold Table.sameKey
  change (_ && List.all ["issued_for".toList, "issued_by".toList] _) = _
  simp only [List.all_cons, column_for, column_by, ofRelRow, List.getElem?_cons_succ, List.getElem?_cons_zero, Value.eq]
  simp [relationsTable, Bool.decide_and]

theorem sameKey_root (rows : List RootRow) (r r' : List Value) : (rootsTable rows).sameKey r r' = false := rfl

theorem asRelRow_ofRelRow (r : RelRow) : asRelRow (ofRelRow r) = some r := rfl

theorem order_relations [Env] (rows rs : List RelRow) (k : Str) (ps : List Value) :
    (relationsTable rows).order (.string k :: ps) (rs.map ofRelRow) = (Env.scan k rs).map ofRelRow := by
  unfold Table.order
  rw [if_neg (by intro h; cases h)]
  have h1 : (rs.map ofRelRow).filterMap asRelRow = rs := by
    rw [List.filterMap_map]
    exact (List.filterMap_congr (fun r _ => asRelRow_ofRelRow r)).trans List.filterMap_some
  have h2 : (rs.map ofRelRow).filter (fun r => (asRelRow r).isNone) = [] := by
    rw [List.filter_map, List.map_eq_nil_iff, List.filter_eq_nil_iff]
    intro r _
    simp [asRelRow_ofRelRow]
  simp only [h1, h2, List.append_nil]

theorem order_roots [Env] (rows : List RootRow) (ps : List Value) (rs : List (List Value)) :
    (rootsTable rows).order ps rs = rs := rfl

theorem has_relations (rows : List RelRow) (cs : List Str) (h : ∀ c ∈ cs, c ∈ relationNames) :
    (relationsTable rows).has cs = true := by
  unfold Table.has
  rw [List.all_eq_true]
  intro c hc
  have := h c hc
  change c ∈ ["relation_type".toList, "issued_for".toList, "issued_by".toList, "issued_at".toList,
    "expires_at".toList, "signature".toList] at this
  simp only [List.mem_cons, List.not_mem_nil, or_false] at this
  rcases this with rfl | rfl | rfl | rfl | rfl | rfl
  · rw [column_type]; rfl
  · rw [column_for]; rfl
  · rw [column_by]; rfl
  · rw [column_at]; rfl
  · rw [column_expires]; rfl
  · rw [column_signature]; rfl

theorem has_roots (rows : List RootRow) (cs : List Str) (h : ∀ c ∈ cs, c ∈ rootNames) :
    (rootsTable rows).has cs = true := by
  unfold Table.has
  rw [List.all_eq_true]
  intro c hc
  have := h c hc
  change c ∈ ["public_key".toList, "weight_factor".toList] at this
  simp only [List.mem_cons, List.not_mem_nil, or_false] at this
  rcases this with rfl | rfl
  · rw [column_key]; rfl
  · rw [column_factor]; rfl

theorem lookup_relations (db : Db) : (file db).tables.lookup "trust_relations".toList = some (relationsTable db.relations) := rfl

theorem lookup_roots (db : Db) : (file db).tables.lookup "roots".toList = some (rootsTable db.roots) := by
  change List.lookup "roots".toList [("trust_relations".toList, _), ("roots".toList, _)] = _
  rw [List.lookup_cons, show ("roots".toList == "trust_relations".toList) = false by decide +kernel]
  rfl

theorem set_relations (db : Db) (rows : List RelRow) :
    setTable "trust_relations".toList (relationsTable rows) (file db).tables = (file { db with relations := rows }).tables := by
  change [if "trust_relations".toList = "trust_relations".toList then _ else _, if "roots".toList = "trust_relations".toList then _ else _] = _
  rw [if_pos rfl, if_neg (by decide +kernel)]
  rfl

theorem set_roots (db : Db) (rows : List RootRow) :
    setTable "roots".toList (rootsTable rows) (file db).tables = (file { db with roots := rows }).tables := by
  change [if "trust_relations".toList = "roots".toList then _ else _, if "roots".toList = "roots".toList then _ else _] = _
  rw [if_pos rfl, if_neg (by decide +kernel)]
  rfl

/-! ### Statements -/

variable [Env]

theorem exec_selectRelations (db : Db) (k : Str) (t : Int) :
    execute (.select relationNames "trust_relations".toList [⟨"issued_for".toList, ['=']⟩, ⟨"relation_type".toList, ['=']⟩])
      [.string k, .integer t] (file db).tables
    = some ((Env.scan k (db.relations.filter (fun r => r.issuedFor = k ∧ r.relationType = t))).map ofRelRow, (file db).tables) := by
  simp only [execute, lookup_relations]
  rw [if_pos ⟨has_relations _ _ (by decide +kernel), rfl⟩]
  have h : (relationsTable db.relations).rows.filter ((relationsTable db.relations).all
      [⟨"issued_for".toList, ['=']⟩, ⟨"relation_type".toList, ['=']⟩] [.string k, .integer t])
      = (db.relations.filter (fun r => r.issuedFor = k ∧ r.relationType = t)).map ofRelRow := by
    change List.filter _ (List.map ofRelRow db.relations) = _
    rw [List.filter_map]
    exact congrArg _ (List.filter_congr (fun r _ => relations_for_type _ k t r))
  rw [h, order_relations, List.map_map]
  exact congrArg (fun l => some (l, _)) (List.map_congr_left (fun r _ => project_relation _ r))

omit [Env] in
/-- With a primary key at most one row has a given key. -/
theorem Keyed.le_one {db : Db} (h : Keyed db) (b f : Str) :
    (db.relations.filter (fun r => r.issuedBy = b ∧ r.issuedFor = f)).length ≤ 1 := by
  set l := db.relations.filter (fun r => r.issuedBy = b ∧ r.issuedFor = f) with hl
  have hn : (l.map (fun r => (r.issuedFor, r.issuedBy))).Nodup :=
    h.sublist (List.filter_sublist.map _)
  have hall : ∀ r ∈ l, (r.issuedFor, r.issuedBy) = (f, b) := by
    intro r hr
    have := (List.mem_filter.mp hr).2
    simp only [decide_eq_true_eq] at this
    rw [this.1, this.2]
  have e : l.map (fun r => (r.issuedFor, r.issuedBy)) = List.replicate l.length (f, b) := by
    rw [List.eq_replicate_iff]
    refine ⟨List.length_map _, ?_⟩
    intro x hx
    obtain ⟨r, hr, rfl⟩ := List.mem_map.mp hx
    exact hall r hr
  rw [e, List.nodup_replicate] at hn
  exact hn

theorem scan_le_one {k : Str} {l : List RelRow} (h : l.length ≤ 1) : Env.scan k l = l := by
  have hp := Env.scan_perm k l
  match l, h with
  | [], _ => exact List.perm_nil.mp hp
  | [r], _ => exact List.perm_singleton.mp hp

theorem exec_selectRelation {db : Db} (hk : Keyed db) (b f : Str) :
    execute (.select relationNames "trust_relations".toList [⟨"issued_by".toList, ['=']⟩, ⟨"issued_for".toList, ['=']⟩])
      [.string b, .string f] (file db).tables
    = some ((db.relations.filter (fun r => r.issuedBy = b ∧ r.issuedFor = f)).map ofRelRow, (file db).tables) := by
  simp only [execute, lookup_relations]
  rw [if_pos ⟨has_relations _ _ (by decide +kernel), rfl⟩]
  have h : (relationsTable db.relations).rows.filter ((relationsTable db.relations).all
      [⟨"issued_by".toList, ['=']⟩, ⟨"issued_for".toList, ['=']⟩] [.string b, .string f])
      = (db.relations.filter (fun r => r.issuedBy = b ∧ r.issuedFor = f)).map ofRelRow := by
    change List.filter _ (List.map ofRelRow db.relations) = _
    rw [List.filter_map]
    exact congrArg _ (List.filter_congr (fun r _ => relations_by_for _ b f r))
  rw [h, order_relations, scan_le_one (hk.le_one b f), List.map_map]
  exact congrArg (fun l => some (l, _)) (List.map_congr_left (fun r _ => project_relation _ r))

theorem exec_insertRelation (db : Db) (row : RelRow) :
    execute (.insertOrReplace "trust_relations".toList 6) (ofRelRow row) (file db).tables
    = some ([], (file { db with relations := (db.relations.filter
        (fun r => ¬ (r.issuedFor = row.issuedFor ∧ r.issuedBy = row.issuedBy)) ++ [row]) }).tables) := by
  simp only [execute, lookup_relations]
  rw [if_pos ⟨rfl, rfl⟩]
  have hrow : ((relationsTable db.relations).columns.zip (ofRelRow row)).map (fun cp => cp.1.2.apply cp.2) = ofRelRow row := rfl
  rw [hrow]
  have h : (Table.mk relationColumns ["issued_for".toList, "issued_by".toList]
      ((relationsTable db.relations).rows.filter (fun r => ¬ (relationsTable db.relations).sameKey r (ofRelRow row)) ++ [ofRelRow row]))
      = relationsTable (db.relations.filter (fun r => ¬ (r.issuedFor = row.issuedFor ∧ r.issuedBy = row.issuedBy)) ++ [row]) := by
    unfold relationsTable
    rw [Table.mk.injEq]
    refine ⟨rfl, rfl, ?_⟩
    change List.filter _ (List.map ofRelRow db.relations) ++ _ = _
    rw [List.map_append, List.filter_map]
    refine congrArg (· ++ _) (congrArg _ (List.filter_congr (fun r _ => ?_)))
    have := sameKey_relation db.relations r row
    change decide (¬ (relationsTable db.relations).sameKey (ofRelRow r) (ofRelRow row) = true) = _
    rw [this]
    simp
  exact (congrArg (fun t => some ([], setTable _ t _)) h).trans (by rw [set_relations])

theorem exec_deleteExpired (db : Db) (now t : Int) :
    execute (.delete "trust_relations".toList [⟨"expires_at".toList, ['<', '=']⟩, ⟨"relation_type".toList, ['=']⟩])
      [.integer now, .integer t] (file db).tables
    = some ([], (file { db with relations := (db.relations.filter
        (fun r => ¬ (r.expiresAt ≤ now ∧ r.relationType = t))) }).tables) := by
  simp only [execute, lookup_relations]
  rw [if_pos ⟨has_relations _ _ (by decide +kernel), rfl⟩]
  have h : (Table.mk relationColumns ["issued_for".toList, "issued_by".toList]
      ((relationsTable db.relations).rows.filter (fun r => ¬ (relationsTable db.relations).all
        [⟨"expires_at".toList, ['<', '=']⟩, ⟨"relation_type".toList, ['=']⟩] [.integer now, .integer t] r)))
      = relationsTable (db.relations.filter (fun r => ¬ (r.expiresAt ≤ now ∧ r.relationType = t))) := by
    unfold relationsTable
    rw [Table.mk.injEq]
    refine ⟨rfl, rfl, ?_⟩
    change List.filter _ (List.map ofRelRow db.relations) = _
    rw [List.filter_map]
    refine congrArg _ (List.filter_congr (fun r _ => ?_))
    have := relations_expired db.relations now t r
    change decide (¬ (relationsTable db.relations).all _ _ (ofRelRow r) = true) = _
    rw [this]
    simp
  exact (congrArg (fun t => some ([], setTable _ t _)) h).trans (by rw [set_relations])

theorem exec_selectRoot (db : Db) (k : Str) :
    execute (.select rootNames "roots".toList [⟨"public_key".toList, ['=']⟩]) [.string k] (file db).tables
    = some ((db.roots.filter (fun r => r.publicKey = k)).map ofRootRow, (file db).tables) := by
  simp only [execute, lookup_roots]
  rw [if_pos ⟨has_roots _ _ (by decide +kernel), rfl⟩, order_roots]
  change some (List.map _ (List.filter _ (List.map ofRootRow db.roots)), _) = _
  rw [List.filter_map, List.map_map]
  refine congrArg (fun l => some (l, _)) ?_
  rw [show db.roots.filter ((rootsTable db.roots).all [⟨"public_key".toList, ['=']⟩] [.string k] ∘ ofRootRow)
    = db.roots.filter (fun r => r.publicKey = k) from List.filter_congr (fun r _ => roots_key db.roots k r)]
  exact List.map_congr_left (fun r _ => project_root _ r)

theorem exec_selectRoots (db : Db) :
    execute (.select rootNames "roots".toList []) [] (file db).tables = some (db.roots.map ofRootRow, (file db).tables) := by
  simp only [execute, lookup_roots]
  rw [if_pos ⟨has_roots _ _ (by decide +kernel), rfl⟩, order_roots]
  change some (List.map _ (List.filter (fun _ => true) (List.map ofRootRow db.roots)), _) = _
  rw [List.filter_true, List.map_map]
  exact congrArg (fun l => some (l, _)) (List.map_congr_left (fun r _ => project_root _ r))

theorem exec_insertRoot (db : Db) (row : RootRow) :
    execute (.insertOrReplace "roots".toList 2) (ofRootRow row) (file db).tables
    = some ([], (file { db with roots := db.roots ++ [row] }).tables) := by
  simp only [execute, lookup_roots]
  rw [if_pos ⟨rfl, rfl⟩]
  have hrow : ((rootsTable db.roots).columns.zip (ofRootRow row)).map (fun cp => cp.1.2.apply cp.2) = ofRootRow row := rfl
  rw [hrow]
  have h : (Table.mk rootColumns []
      ((rootsTable db.roots).rows.filter (fun r => ¬ (rootsTable db.roots).sameKey r (ofRootRow row)) ++ [ofRootRow row]))
      = rootsTable (db.roots ++ [row]) := by
    unfold rootsTable
    rw [Table.mk.injEq]
    refine ⟨rfl, rfl, ?_⟩
    change List.filter (fun _ => true) (List.map ofRootRow db.roots) ++ _ = _
    rw [List.map_append, List.filter_true]
    rfl
  exact (congrArg (fun t => some ([], setTable _ t _)) h).trans (by rw [set_roots])

/-! ### Methods -/

theorem query_sim {text : Str} {s : Stmt} {params : List Value} {rows : Db → List (List Value)} {next : Db → Db}
    (hp : prepare text = some s)
    (he : ∀ db, Keyed db → execute s params (file db).tables = some (rows db, (file (next db)).tables))
    (hf : ∀ db, (next db).faults = db.faults) (hi : ∀ db, Keyed db → Keyed (next db)) :
    Sim file Keyed (Sqlite.stmt fun db => (.ok (rows db), next db)) (query text params) := by
  have key : ∀ db, Keyed db → ({ file db with tables := (file (next db)).tables } : File) = file (next db) := by
    intro db _
    unfold file
    rw [hf]
  intro db hk
  obtain ⟨rels, roots, faults⟩ := db
  match faults with
  | [] =>
    refine ⟨?_, hi _ hk⟩
    change (match prepare text with | .none => _ | some s => _) = _
    rw [hp]
    change (match execute s params (file ⟨rels, roots, []⟩).tables with | some (rows, tables) => _ | .none => _) = _
    rw [he _ hk]
    exact congrArg (fun f => (Outcome.ok _, f)) (key _ hk)
  | true :: fs => exact ⟨rfl, hk⟩
  | false :: fs =>
    have hk' : Keyed ⟨rels, roots, fs⟩ := hk
    refine ⟨?_, hi _ hk'⟩
    change (match prepare text with | .none => _ | some s => _) = _
    rw [hp]
    change (match execute s params (file ⟨rels, roots, fs⟩).tables with | some (rows, tables) => _ | .none => _) = _
    rw [he _ hk']
    exact congrArg (fun f => (Outcome.ok _, f)) (key _ hk')

omit [Env] in
theorem stmt_bind {α β : Type} (rows : Db → α) (next : Db → Db) (g : α → Outcome SqlError β) :
    (Sqlite.stmt fun db => (g (rows db), next db))
      = (Sqlite.stmt fun db => (.ok (rows db), next db)) >>= fun r => M.lift (g r) := by
  funext db
  rw [M.bind_run]
  unfold Sqlite.stmt
  obtain ⟨rels, roots, faults⟩ := db
  match faults with
  | [] => rfl
  | true :: fs => rfl
  | false :: fs => rfl

theorem parseRelation_ofRelRow (r : RelRow) : parseRelation (ofRelRow r) = Sqlite.parseRelation r := rfl

theorem parseRows_map (rs : List RelRow) : parseRows (rs.map ofRelRow) = Sqlite.parseRows rs := by
  induction rs with
  | nil => rfl
  | cons r rs ih =>
    rw [List.map_cons, parseRows, parseRelation_ofRelRow, ih]
    rfl

theorem parseRoots_map (rs : List RootRow) : parseRoots (rs.map ofRootRow) = Sqlite.parseRoots rs := by
  induction rs with
  | nil => rfl
  | cons r rs ih =>
    rw [List.map_cons, parseRoots, ih]
    rfl

theorem getRelations_sim (k : PublicKey) (t : Int) :
    Sim file Keyed (Sqlite.getRelations k t) (getRelations k t) := by
  have e : Sqlite.getRelations k t = Sqlite.stmt fun db =>
      (parseRows ((Env.scan (keyText k) (db.relations.filter (fun r => r.issuedFor = keyText k ∧ r.relationType = t))).map ofRelRow), db) := by
    unfold Sqlite.getRelations
    congr 1; funext db
    rw [parseRows_map]
  rw [e, stmt_bind (fun db => (Env.scan (keyText k) (db.relations.filter
    (fun r => r.issuedFor = keyText k ∧ r.relationType = t))).map ofRelRow) (fun db => db)]
  exact .bind (query_sim prepare_selectRelations (fun db _ => exec_selectRelations db _ _) (fun _ => rfl) (fun _ h => h))
    fun _ => .lift _

theorem getRelation_sim (f b : PublicKey) : Sim file Keyed (Sqlite.getRelation f b) (getRelation f b) := by
  have hq := query_sim (params := [.string (keyText b), .string (keyText f)]) prepare_selectRelation
    (fun db hk => exec_selectRelation hk (keyText b) (keyText f)) (fun _ => rfl) (fun _ h => h)
  have e : Sqlite.getRelation f b = (Sqlite.stmt fun db => (.ok ((db.relations.filter (fun r => r.issuedBy = keyText b ∧
      r.issuedFor = keyText f)).map ofRelRow), db)) >>= fun rows => M.lift (match rows with
        | row :: _ => (do let r ← parseRelation row; .ok (some r))
        | [] => .ok none) := by
    rw [← stmt_bind (fun db => (db.relations.filter (fun r => r.issuedBy = keyText b ∧
      r.issuedFor = keyText f)).map ofRelRow) (fun db => db) (fun rows => match rows with
        | row :: _ => (do let r ← parseRelation row; .ok (some r))
        | [] => .ok none)]
    unfold Sqlite.getRelation
    congr 1; funext db
    rw [← List.head?_filter]
    cases db.relations.filter (fun r => r.issuedBy = keyText b ∧ r.issuedFor = keyText f) with
    | nil => rfl
    | cons r rs => rfl
  rw [e]
  refine .bind hq fun rows => ?_
  cases rows with
  | nil => exact .lift _
  | cons row rows =>
    have : (do let r ← M.lift (parseRelation row); pure (some r) : M File SqlError (Option TrustRelation))
        = M.lift (do let r ← parseRelation row; .ok (some r)) := by
      funext s
      rw [M.bind_run, M.lift_run, M.lift_run]
      cases parseRelation row <;> rfl
    change Sim file Keyed _ (do let r ← M.lift (parseRelation row); pure (some r))
    rw [this]
    exact .lift _

theorem getAuthorizations_sim (k : PublicKey) :
    Sim file Keyed (Sqlite.getAuthorizations k) (getAuthorizations k) :=
  .bind (getRelations_sim _ _) fun _ => .pure' _

theorem getRevocations_sim (k : PublicKey) :
    Sim file Keyed (Sqlite.getRevocations k) (getRevocations k) :=
  .bind (getRelations_sim _ _) fun _ => .pure' _

omit [Env] in
theorem Keyed.insert {db : Db} (h : Keyed db) (row : RelRow) : Keyed { db with relations := (db.relations.filter
    (fun r => ¬ (r.issuedFor = row.issuedFor ∧ r.issuedBy = row.issuedBy)) ++ [row]) } := by
  unfold Keyed at h ⊢
  rw [List.map_append, List.nodup_append]
  refine ⟨h.sublist (List.filter_sublist.map _), by simp, ?_⟩
  intro x hx y hy hxy
  obtain ⟨r, hr, rfl⟩ := List.mem_map.mp hx
  have h2 := (List.mem_filter.mp hr).2
  simp only [List.map_cons, List.map_nil, List.mem_singleton] at hy
  subst hy
  simp only [Prod.mk.injEq] at hxy
  simp [hxy] at h2

theorem insert_sim (r : TrustRelation) : Sim file Keyed (Sqlite.insert r) (insert r) := by
  have e : Sqlite.insert r = (Sqlite.stmt fun db => (.ok (([] : List (List Value))), { db with relations :=
      (db.relations.filter (fun x => ¬ (x.issuedFor = (Sqlite.toRow r).issuedFor ∧ x.issuedBy = (Sqlite.toRow r).issuedBy))
        ++ [Sqlite.toRow r]) })) >>= fun _ => pure () := by
    exact stmt_bind (fun _ => ([] : List (List Value))) _ (fun _ => .ok ())
  rw [e]
  have hp : insert r = query insertRelation (ofRelRow (Sqlite.toRow r)) >>= fun _ => pure () := by cases r <;> rfl
  rw [hp]
  exact .bind (query_sim prepare_insertRelation (fun db _ => exec_insertRelation db _) (fun _ => rfl) (fun _ h => h.insert _))
    fun _ => .pure' _

theorem updateRelation_sim (r : TrustRelation) : Sim file Keyed (Sqlite.updateRelation r) (updateRelation r) := by
  refine .bind (getRelation_sim _ _) fun old => ?_
  rcases old with _ | (a | v)
  · exact insert_sim r
  · dsimp only
    split
    · exact insert_sim r
    · exact .pure' _
  · dsimp only
    split
    · exact insert_sim r
    · exact .pure' _

theorem getRootWeightFactor_sim (k : PublicKey) :
    Sim file Keyed (Sqlite.getRootWeightFactor k) (getRootWeightFactor k) := by
  have hq := query_sim (params := [.string (keyText k)]) prepare_selectRoot
    (fun db _ => exec_selectRoot db (keyText k)) (fun _ => rfl) (fun _ h => h)
  let g : List (List Value) → Outcome SqlError (Option Nat) := fun rows => match rows with
    | row :: _ => (do
      let w ← asInteger .weightFactorConversionDB row 1
      if 0 ≤ w ∧ w < 2 ^ 32 then .ok (some w.toNat) else .err .weightFactorConversionDB)
    | [] => .ok none
  have e : Sqlite.getRootWeightFactor k = (Sqlite.stmt fun db => (.ok ((db.roots.filter (fun r => r.publicKey = keyText k)).map
      ofRootRow), db)) >>= fun rows => M.lift (g rows) := by
    rw [← stmt_bind (fun db => (db.roots.filter (fun r => r.publicKey = keyText k)).map ofRootRow) (fun db => db) g]
    unfold Sqlite.getRootWeightFactor
    congr 1; funext db
    rw [← List.head?_filter]
    cases db.roots.filter (fun r => r.publicKey = keyText k) with
    | nil => rfl
    | cons r rs =>
      change (if _ then _ else _) = ((if _ then _ else _), db)
      split <;> rfl
  rw [e]
  refine .bind hq fun rows => ?_
  cases rows with
  | nil => exact .lift _
  | cons row rows =>
    have : (do
        let w ← M.lift (asInteger .weightFactorConversionDB row 1)
        if 0 ≤ w ∧ w < 2 ^ 32 then pure (some w.toNat) else M.fail .weightFactorConversionDB : M File SqlError (Option Nat))
        = M.lift (g (row :: rows)) := by
      funext s
      rw [M.bind_run, M.lift_run, M.lift_run]
      change _ = (((asInteger .weightFactorConversionDB row 1) >>= fun w => _), s)
      cases asInteger .weightFactorConversionDB row 1 with
      | ok w =>
        change (if _ then _ else _ : M File SqlError (Option Nat)) s = ((if _ then _ else _), s)
        split <;> rfl
      | _ => rfl
    change Sim file Keyed _ (do
        let w ← M.lift (asInteger .weightFactorConversionDB row 1)
        if 0 ≤ w ∧ w < 2 ^ 32 then pure (some w.toNat) else M.fail .weightFactorConversionDB)
    rw [this]
    exact .lift _

theorem setRootWeightFactor_sim (k : PublicKey) (n : Nat) :
    Sim file Keyed (Sqlite.setRootWeightFactor k n) (setRootWeightFactor k n) := by
  have e : Sqlite.setRootWeightFactor k n = (Sqlite.stmt fun db => (.ok (([] : List (List Value))),
      { db with roots := db.roots ++ [⟨keyText k, (n : Int)⟩] })) >>= fun _ => pure () :=
    stmt_bind (fun _ => ([] : List (List Value))) _ (fun _ => .ok ())
  rw [e]
  exact .bind (query_sim prepare_insertRoot (fun db _ => exec_insertRoot db ⟨keyText k, (n : Int)⟩) (fun _ => rfl) (fun _ h => h))
    fun _ => .pure' _

theorem rootKeys_sim : Sim file Keyed Sqlite.rootKeys rootKeys := by
  have e : Sqlite.rootKeys = (Sqlite.stmt fun db => (.ok (db.roots.map ofRootRow), db)) >>= fun rows => M.lift (parseRoots rows) := by
    rw [← stmt_bind (fun db => db.roots.map ofRootRow) (fun db => db)]
    unfold Sqlite.rootKeys
    congr 1; funext db
    rw [parseRoots_map]
  rw [e]
  exact .bind (query_sim prepare_selectRoots (fun db _ => exec_selectRoots db) (fun _ => rfl) (fun _ h => h)) fun _ => .lift _

theorem removeExpired_sim (now : Dur) : Sim file Keyed (Sqlite.removeExpired now) (removeExpired now) := by
  have e : Sqlite.removeExpired now = (Sqlite.stmt fun db => (.ok (([] : List (List Value))), { db with relations :=
      (db.relations.filter (fun r => ¬ (r.expiresAt ≤ asI64 now.secs ∧ r.relationType = authType))) })) >>= fun _ => pure () :=
    stmt_bind (fun _ => ([] : List (List Value))) _ (fun _ => .ok ())
  rw [e]
  exact .bind (query_sim prepare_deleteExpired (fun db _ => exec_deleteExpired db _ _) (fun _ => rfl)
    (fun _ h => h.sublist (List.filter_sublist.map _))) fun _ => .pure' _

/-- The file represents the database. -/
theorem represents : Represents (S := Db) (T := File) (σ := SqlError) file Keyed where
  getRelation a b := getRelation_sim a b
  getAuthorizations a := getAuthorizations_sim a
  getRevocations a := getRevocations_sim a
  insert r := insert_sim r
  getRootWeightFactor a := getRootWeightFactor_sim a
  setRootWeightFactor a n := setRootWeightFactor_sim a n
  rootKeys := rootKeys_sim
  revoke r := updateRelation_sim _
  updateAuth a t := updateRelation_sim _
  removeExpired t := removeExpired_sim t
  ghostBound db _ := by
    change relationCount (file db) = db.relations.length
    unfold relationCount
    rw [lookup_relations]
    exact List.length_map _

end SqlStorage

end TG
