/-
The part of SQL that /repo/service/src/storage_impl.rs uses, and how SQLite executes it.

`Sqlite` (in Model/Sqlite) has the statements of storage_impl.rs by their meaning.  Here the texts of the statements are read and executed by a small
interpreter, so that nothing about primary keys, conditions or the order of columns and parameters is put in by hand.

Simplifications: only the grammar below; identifiers are compared exactly, keywords in upper or lower case; of the type conversions of SQLite only those between
integers and texts; rows of a table without index come in the order of insertion (the order of row ids), those of a table with an index in the order
`Env.scan` of the environment.
-/
import Verif.Model.Sqlite

namespace TG.Sql

open Lean in
/-- `chars "text"` stands for the list of the characters of the text.  It is expanded when the file is read, so that no decoding of UTF-8 is left to compute. -/
macro "chars " s:str : term => do
  let cs := s.getString.toList.toArray.map fun c => Syntax.mkCharLit c
  `([$cs,*])

/-- `marine_sqlite_connector::Value` (used for example in storage_impl.rs:101-104), without floats. -/
inductive Value where
  | null
  | integer (i : Int)
  | string (s : Str)
  | binary (b : Bytes)
  deriving DecidableEq, Repr

/-- Column affinity, SQLite's conversion rule of a declared type (the types of storage_impl.rs:33-49). -/
inductive Affinity where
  | integer
  | text
  | none
  deriving DecidableEq, Repr

/-- A comparison of a column with a parameter (the conditions of storage_impl.rs:98, 204, 281 and 344). -/
structure Cond where
  column : Str
  op : Str
  deriving DecidableEq, Repr

/-- The statements (storage_impl.rs:33-49, 97-98, 203-204, 254, 281, 303, 318, 344). -/
inductive Stmt where
  | create (table : Str) (columns : List (Str × Str)) (primaryKey : List Str)
  | select (columns : List Str) (table : Str) (conds : List Cond)
  | insertOrReplace (table : Str) (params : Nat)
  | delete (table : Str) (conds : List Cond)
  deriving DecidableEq, Repr

/-! ### Reading a text -/

/-- A letter, digit or underscore. -/
def isWord (c : Char) : Bool := c.isAlphanum || c == '_'

/-- Words and single other characters; also empty tokens, dropped by `joined`. -/
def tokens : Str → List Str
  | [] => []
  | c :: cs =>
    if c = ' ' ∨ c = '\n' then [] :: tokens cs
    else if isWord c then
      match tokens cs with
      | [] => [[c]]
      | t :: ts => (c :: t) :: ts
    else [] :: [c] :: [] :: tokens cs

/-- Join the two characters of `<=`, and drop empty tokens. -/
def joined : List Str → List Str
  | [] => []
  | [] :: ts => joined ts
  | t :: ts =>
    match t, joined ts with
    | ['<'], ['='] :: ts' => ['<', '='] :: ts'
    | t, ts' => t :: ts'

/-- The token is this keyword, in upper or lower case. -/
def isKw (t : Str) (kw : Str) : Bool := t.map Char.toUpper == kw

/-- Names separated by commas, up to the token `stop`; returns what comes after it. -/
def names (stop : List Str → Option (List Str)) : Nat → List Str → Option (List Str × List Str)
  | 0, _ => .none
  | fuel + 1, n :: ts =>
    match stop ts with
    | some rest => some ([n], rest)
    | .none =>
      match ts with
      | [','] :: ts' => (names stop fuel ts').map (fun r => (n :: r.1, r.2))
      | _ => .none
  | _ + 1, [] => .none

/-- The keyword, then the rest. -/
def kw (k : Str) : List Str → Option (List Str)
  | t :: ts => if isKw t k then some ts else .none
  | [] => .none

/-- The token, then the rest. -/
def tok (k : Str) : List Str → Option (List Str)
  | t :: ts => if t = k then some ts else .none
  | [] => .none

/-- `column op ? AND column op ? ...`, up to the end of the text. -/
def conds : Nat → List Str → Option (List Cond)
  | 0, _ => .none
  | fuel + 1, c :: op :: ['?'] :: ts =>
    if op = ['='] ∨ op = ['<', '='] then
      match ts with
      | [] => some [⟨c, op⟩]
      | a :: ts' => if isKw a (chars "AND") then (conds fuel ts').map (⟨c, op⟩ :: ·) else .none
    else .none
  | _ + 1, _ => .none

/-- Nothing, or `WHERE` and conditions. -/
def whereClause : List Str → Option (List Cond)
  | [] => some []
  | w :: ts => if isKw w (chars "WHERE") then conds ts.length ts else .none

/-- `?` separated by commas and `)`. -/
def params : List Str → Option Nat
  | [['?'], [')']] => some 1
  | ['?'] :: [','] :: ts => (params ts).map (· + 1)
  | _ => .none

/-- The definitions in a `CREATE TABLE`: columns with types, and perhaps a primary key at the end. -/
def columnDefs : Nat → List Str → Option (List (Str × Str) × List Str)
  | 0, _ => .none
  | fuel + 1, n :: ty :: ts =>
    if isKw n (chars "PRIMARY") ∧ isKw ty (chars "KEY") then
      match ts with
      | ['('] :: ts' =>
        match names (tok [')']) ts'.length ts' with
        | some (pk, rest) => if rest = [[')'], [';']] then some ([], pk) else .none
        | .none => .none
      | _ => .none
    else
      match ts with
      | [','] :: ts' => (columnDefs fuel ts').map (fun r => ((n, ty) :: r.1, r.2))
      | ts => if ts = [[')'], [';']] then some ([(n, ty)], []) else .none
  | _ + 1, _ => .none

/-- Read a statement. -/
def parseTokens : List Str → Option Stmt
  | [] => .none
  | t :: ts =>
    if isKw t (chars "SELECT") then do
      let (cols, ts) ← names (kw (chars "FROM")) ts.length ts
      match ts with
      | table :: ts => (whereClause ts).map (.select cols table)
      | [] => .none
    else if isKw t (chars "INSERT") then do
      let ts ← kw (chars "OR") ts
      let ts ← kw (chars "REPLACE") ts
      let ts ← kw (chars "INTO") ts
      match ts with
      | table :: ts => do
        let ts ← kw (chars "VALUES") ts
        let ts ← tok ['('] ts
        (params ts).map (.insertOrReplace table)
      | [] => .none
    else if isKw t (chars "DELETE") then do
      let ts ← kw (chars "FROM") ts
      match ts with
      | table :: ts => (whereClause ts).map (.delete table)
      | [] => .none
    else if isKw t (chars "CREATE") then do
      let ts ← kw (chars "TABLE") ts
      let ts ← kw (chars "IF") ts
      let ts ← kw (chars "NOT") ts
      let ts ← kw (chars "EXISTS") ts
      match ts with
      | table :: ts => do
        let ts ← tok ['('] ts
        (columnDefs ts.length ts).map (fun r => .create table r.1 r.2)
      | [] => .none
    else .none

/-- `Connection::prepare` (for example storage_impl.rs:94-99). -/
def prepare (text : Str) : Option Stmt := parseTokens (joined (tokens text))

/-! ### Executing a statement -/

/-- A table: columns with their affinity, columns of the primary key, rows in the order of insertion. -/
structure Table where
  columns : List (Str × Affinity)
  primaryKey : List Str
  rows : List (List Value)
  deriving DecidableEq, Repr

/-- The database file (`DB_PATH`, storage_impl.rs:26), with the fault schedule of `Db`. -/
structure File where
  tables : List (Str × Table)
  faults : List Bool
  deriving DecidableEq, Repr

/-- The affinity of a declared type; only the two types of storage_impl.rs:33-49. -/
def Affinity.ofType (ty : Str) : Affinity :=
  if isKw ty (chars "INTEGER") then .integer else if isKw ty (chars "TEXT") then .text else .none

/-- A decimal integer. -/
def parseInt (s : Str) : Option Int :=
  match s with
  | '-' :: cs => (digits cs).map (fun n => - (n : Int))
  | cs => (digits cs).map (fun n => (n : Int))
where
  digits (cs : Str) : Option Nat :=
    if cs ≠ [] ∧ cs.all Char.isDigit then some (cs.foldl (fun a c => a * 10 + (c.toNat - 48)) 0) else .none

/-- Apply an affinity to a value that is stored or compared. -/
def Affinity.apply : Affinity → Value → Value
  | .text, .integer i => .string (toString i).toList
  | .integer, .string s =>
    match parseInt s with
    | some i => .integer i
    | .none => .string s
  | _, v => v

/-- `=`: `NULL` equals nothing. -/
def Value.eq (a b : Value) : Bool := decide (a ≠ .null ∧ a = b)

/-- The order of the classes of values. -/
def Value.rank : Value → Nat
  | .null => 0
  | .integer _ => 1
  | .string _ => 2
  | .binary _ => 3

/-- `<=`: within a class as usual, otherwise by class; false with `NULL`. -/
def Value.le (a b : Value) : Bool :=
  match a, b with
  | .null, _ => false
  | _, .null => false
  | .integer i, .integer j => decide (i ≤ j)
  | .string s, .string t => decide (¬ t < s)
  | .binary s, .binary t => decide (¬ t.map UInt8.toNat < s.map UInt8.toNat)
  | a, b => decide (a.rank < b.rank)

/-- The index and affinity of a column. -/
def Table.column (t : Table) (name : Str) : Option (Nat × Affinity) :=
  go t.columns 0
where
  go : List (Str × Affinity) → Nat → Option (Nat × Affinity)
    | [], _ => .none
    | (n, a) :: cs, i => if n = name then some (i, a) else go cs (i + 1)

/-- The condition holds of the row. -/
def Table.cond (t : Table) (c : Cond) (param : Value) (row : List Value) : Bool :=
  match t.column c.column with
  | some (i, a) =>
    match row[i]? with
    | some v => if c.op = ['='] then v.eq (a.apply param) else v.le (a.apply param)
    | .none => false
  | .none => false

/-- All conditions hold of the row, with the parameters in order. -/
def Table.all (t : Table) : List Cond → List Value → List Value → Bool
  | c :: cs, p :: ps, row => t.cond c p row && t.all cs ps row
  | _, _, _ => true

/-- The columns are there. -/
def Table.has (t : Table) (names : List Str) : Bool := names.all (fun n => (t.column n).isSome)

/-- The values of these columns. -/
def Table.project (t : Table) (names : List Str) (row : List Value) : List Value :=
  names.filterMap (fun n => (t.column n).bind (fun c => row[c.1]?))

/-- The rows agree on the primary key. -/
def Table.sameKey (t : Table) (r r' : List Value) : Bool :=
  decide (t.primaryKey ≠ []) && t.primaryKey.all (fun n =>
    match t.column n with
    | some (i, _) =>
      match r[i]?, r'[i]? with
      | some v, some v' => v.eq v'
      | _, _ => false
    | .none => false)

/-- The row as a row of the other model, to ask the environment for an order. -/
def asRelRow : List Value → Option RelRow
  | [.integer t, .string f, .string b, .integer i, .integer e, .binary s] => some ⟨t, f, b, i, e, s⟩
  | _ => .none

/-- A row of the other model as values. -/
def ofRelRow (r : RelRow) : List Value :=
  [.integer r.relationType, .string r.issuedFor, .string r.issuedBy, .integer r.issuedAt, .integer r.expiresAt, .binary r.signature]

/-- A row of `roots` as values. -/
def ofRootRow (r : RootRow) : List Value := [.string r.publicKey, .integer r.weightFactor]

/-- The order in which rows are returned: with an index, some order that depends on the first parameter. -/
def Table.order [Env] (t : Table) (params : List Value) (rows : List (List Value)) : List (List Value) :=
  if t.primaryKey = [] then rows
  else
    match params with
    | .string k :: _ => (Env.scan k (rows.filterMap asRelRow)).map ofRelRow ++ rows.filter (fun r => (asRelRow r).isNone)
    | _ => rows

/-- Replace a table. -/
def setTable (name : Str) (t : Table) (tables : List (Str × Table)) : List (Str × Table) :=
  tables.map (fun nt => if nt.1 = name then (name, t) else nt)

/-- Execute a statement: rows and tables, or failure. -/
def execute [Env] (s : Stmt) (params : List Value) (tables : List (Str × Table)) :
    Option (List (List Value) × List (Str × Table)) :=
  match s with
  | .create name cols pk =>
    match tables.lookup name with
    | some _ => some ([], tables)
    | .none => some ([], tables ++ [(name, ⟨cols.map (fun c => (c.1, Affinity.ofType c.2)), pk, []⟩)])
  | .select cols name cs =>
    match tables.lookup name with
    | some t =>
      if t.has (cols ++ cs.map (·.column)) ∧ params.length = cs.length then
        some ((t.order params (t.rows.filter (t.all cs params))).map (t.project cols), tables)
      else .none
    | .none => .none
  | .insertOrReplace name n =>
    match tables.lookup name with
    | some t =>
      if params.length = n ∧ n = t.columns.length then
        let row := (t.columns.zip params).map (fun cp => cp.1.2.apply cp.2)
        some ([], setTable name { t with rows := t.rows.filter (fun r => ¬ t.sameKey r row) ++ [row] } tables)
      else .none
    | .none => .none
  | .delete name cs =>
    match tables.lookup name with
    | some t =>
      if t.has (cs.map (·.column)) ∧ params.length = cs.length then
        some ([], setTable name { t with rows := t.rows.filter (fun r => ¬ t.all cs params r) } tables)
      else .none
    | .none => .none

variable [Env]

/-- Prepare, bind and step through a statement (for example storage_impl.rs:94-108).  One entry of the fault schedule is consumed. -/
def query (text : Str) (params : List Value) : M File SqlError (List (List Value)) := fun f =>
  let go (f : File) : Outcome SqlError (List (List Value)) × File :=
    match prepare text with
    | .none => (.err .sqliteError, f)
    | some s =>
      match execute s params f.tables with
      | some (rows, tables) => (.ok rows, { f with tables })
      | .none => (.err .sqliteError, f)
  match f.faults with
  | [] => go f
  | true :: fs => (.err .sqliteError, { f with faults := fs })
  | false :: fs => go { f with faults := fs }

end TG.Sql
