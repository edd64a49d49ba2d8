/-
A database file in which some rows have been damaged.
-/
import Verif.Spec.Machine
import Verif.Proofs.SqlStorage
import Verif.Spec.SqlRun

namespace TG.Spec
open Sql
variable [Env]

/-- The row that the service writes for a trust or a revocation. -/
def rowOf (r : TrustRelation) : List Value := ofRelRow (Sqlite.toRow r)

/-- A row that can be read: numbers, keys and a signature where they should be. -/
def Readable (row : List Value) : Prop :=
  ∃ (t : Int) (a b : PublicKey) (i e : Int) (s : Signature),
    row = [.integer t, .string (keyText a), .string (keyText b), .integer i, .integer e, .binary s.encode]

/-- A row that cannot be read.  (Rows with empty cells are not meant: they are worse, see `C128_empty_fails`.) -/
structure Garbled (row : List Value) : Prop where
  columns : row.length = 6
  text : .string [] ∉ row
  binary : .binary [] ∉ row
  unreadable : ¬ Readable row

/-- The rows of the table of trusts and revocations. -/
def relRows (f : File) : List (List Value) := ((f.tables.lookup "trust_relations".toList).map (·.rows)).getD []

/-- The rows of the table of roots. -/
def rootRows (f : File) : List (List Value) := ((f.tables.lookup "roots".toList).map (·.rows)).getD []

/-- The file has the tables that the service creates.  The roots are undamaged.  A row of the other table is as the service writes it or garbled, and if it is garbled
and can still be seen to be about two keys, then `G` holds of these.  The undamaged part is `w`. -/
structure Survives (G : PublicKey → PublicKey → Prop) (f : File) (w : World) : Prop where
  tables : f.tables = [("trust_relations".toList, ⟨SqlStorage.relationColumns, ["issued_for".toList, "issued_by".toList], relRows f⟩),
    ("roots".toList, ⟨SqlStorage.rootColumns, [], rootRows f⟩)]
  rows : ∀ row ∈ relRows f, (∃ r : TrustRelation, r.Whole ∧ row = rowOf r) ∨ Garbled row
  /-- The primary key. -/
  keyed : (relRows f).Pairwise (fun r r' => ∀ a b, ¬ (r[1]? = some (.string a) ∧ r'[1]? = some (.string a) ∧ r[2]? = some (.string b) ∧ r'[2]? = some (.string b)))
  pairs : ∀ row ∈ relRows f, Garbled row → ∀ a b, row[1]? = some (.string (keyText b)) → row[2]? = some (.string (keyText a)) → G a b
  rootRows : ∀ row ∈ rootRows f, ∃ (k : PublicKey) (n : Nat), n ≤ 16 ∧ row = [.string (keyText k), .integer n]
  relation : ∀ a b r, w.relation a b = some r ↔ r.Whole ∧ rowOf r ∈ relRows f ∧ r.issuedBy = a ∧ r.issuedFor = b
  /-- Of two rows for a root the first counts.  The factor `n` stands for the maximum chain length `16 - n`. -/
  roots : ∀ k, w.roots k = (Spec.rootRows f).findSome? (fun row => match row with
    | [.string s, .integer n] => if s = keyText k then some (16 - n.toNat) else none
    | _ => none)

/-- The file `f'` is `f` with rows of the table of trusts and revocations garbled, or lost. -/
structure DamagedFrom (f f' : File) : Prop where
  tables : f'.tables = [("trust_relations".toList, ⟨SqlStorage.relationColumns, ["issued_for".toList, "issued_by".toList], relRows f'⟩),
    ("roots".toList, ⟨SqlStorage.rootColumns, [], rootRows f⟩)]
  rows : ∀ row ∈ relRows f', row ∈ relRows f ∨ Garbled row
  length : (relRows f').length ≤ (relRows f).length
  keyed : (relRows f').Pairwise (fun r r' => ∀ a b, ¬ (r[1]? = some (.string a) ∧ r'[1]? = some (.string a) ∧ r[2]? = some (.string b) ∧ r'[2]? = some (.string b)))
  faults : f'.faults = f.faults

/-- A garbled row of the file is about these two keys. -/
def GarbledPair (f : File) (a b : PublicKey) : Prop :=
  ∃ row ∈ relRows f, Garbled row ∧ row[1]? = some (.string (keyText b)) ∧ row[2]? = some (.string (keyText a))

/-- Calls, restarts and (only if `faulty`) failing statements, starting with a file. -/
inductive From (faulty : Prop) (f : File) : List (Op × Outcome TrustGraphError Answer) → File → Prop
  | refl : From faulty f [] f
  | step {tr g} (op : Op) : From faulty f tr g → From faulty f (tr ++ [(op, (op.callIn g).1)]) (op.callIn g).2
  | restart {tr g} : From faulty f tr g → From faulty f tr (SqlStorage.createTables g).2
  | weather {tr g} (faults : List Bool) : faulty → From faulty f tr g → From faulty f tr { g with faults }

/-- The steps of the reference machine from a state.  Calls that may fail can fail in the storage. -/
inductive World.Goes (mayFail : Op → Prop) (w : World) : List (Op × Outcome TrustGraphError Answer) → World → Prop
  | refl : Goes mayFail w [] w
  | step {tr v op o v'} : Goes mayFail w tr v → v.Step op o v' → Goes mayFail w (tr ++ [(op, o)]) v'
  | fault {tr v op v'} : mayFail op → Goes mayFail w tr v → v.Break op v' → Goes mayFail w (tr ++ [(op, .err .internalStorageError)]) v'

end TG.Spec
