/-
Storage methods on a file with damaged rows.
-/
import Verif.Spec.Damage
import Verif.Props.Contract
import Verif.Props.Keys
import Verif.Props.Formats

namespace TG
open Sql Spec SqlStorage
variable [Env]

namespace Damage

/-! ### Reading a row -/

theorem parse_written {r : TrustRelation} (h : r.Whole) : parseRelation (rowOf r) = .ok r := by
  rw [rowOf, parseRelation_ofRelRow, parseRelation_toRow, h.trunc_eq]

theorem key_cases {s : Str} (h : s ≠ []) : (∃ k : PublicKey, s = keyText k) ∨ ∃ e, PublicKey.fromBase58 s = .err e := by
  unfold PublicKey.fromBase58
  rcases hd : Base58.decode s with _ | bs
  · exact .inr ⟨_, rfl⟩
  · have hne : bs ≠ [] := by
      rintro rfl
      exact h (Base58.encode_decode hd).symm
    rcases PublicKey.decode_cases hne with ⟨k, hk⟩ | ⟨e, he⟩
    · exact .inl ⟨k, C44_text.mp (by unfold PublicKey.fromBase58; rw [hd]; exact hk)⟩
    · exact .inr ⟨e, he⟩

theorem sig_cases {bs : Bytes} (h : bs ≠ []) : (∃ s : Signature, bs = s.encode) ∨ ∃ e, Signature.decode bs = .err e := by
  rcases Signature.decode_cases h with ⟨s, hs⟩ | he
  · exact .inl ⟨s, Signature.decode_ok hs⟩
  · exact .inr he

theorem parse_garbled {row : List Value} (h : Garbled row) : ∃ e, parseRelation row = .err e := by
  obtain ⟨hl, ht, hb, hu⟩ := h
  match row, hl with
  | [a, b, c, d, e, g], _ =>
    simp only [List.mem_cons, List.not_mem_nil, or_false, not_or] at ht hb
    cases a with
    | integer t =>
      cases b with
      | string b =>
        rcases key_cases (s := b) (by rintro rfl; exact ht.2.1 rfl) with ⟨kb, rfl⟩ | ⟨er, hb'⟩
        · cases c with
          | string c =>
            rcases key_cases (s := c) (by rintro rfl; exact ht.2.2.1 rfl) with ⟨kc, rfl⟩ | ⟨er, hc'⟩
            · cases d with
              | integer i =>
                cases e with
                | integer x =>
                  cases g with
                  | binary s =>
                    rcases sig_cases (bs := s) (by rintro rfl; exact hb.2.2.2.2.2 rfl) with ⟨sg, rfl⟩ | ⟨er, hs'⟩
                    · exact absurd ⟨_, _, _, _, _, _, rfl⟩ hu
                    · refine ⟨.signatureDecodeError er, ?_⟩
                      unfold parseRelation asInteger asString asBinary
                      simp [PublicKey.fromBase58_keyText, hs']
                  | _ => exact ⟨.fieldConversionDB, by unfold parseRelation asInteger asString asBinary; simp [PublicKey.fromBase58_keyText]⟩
                | _ => exact ⟨.fieldConversionDB, by unfold parseRelation asInteger asString; simp [PublicKey.fromBase58_keyText]⟩
              | _ => exact ⟨.fieldConversionDB, by unfold parseRelation asInteger asString; simp [PublicKey.fromBase58_keyText]⟩
            · exact ⟨.signatureDecodeError er, by unfold parseRelation asInteger asString; simp [PublicKey.fromBase58_keyText, hc']⟩
          | _ => exact ⟨.fieldConversionDB, by unfold parseRelation asInteger asString; simp [PublicKey.fromBase58_keyText]⟩
        · exact ⟨.signatureDecodeError er, by unfold parseRelation asInteger asString; simp [hb']⟩
      | _ => exact ⟨.fieldConversionDB, rfl⟩
    | _ => exact ⟨.fieldConversionDB, rfl⟩

/-! ### The tables -/

/-- The table of trusts and revocations with these rows. -/
abbrev tbl (rows : List (List Value)) : Table := ⟨relationColumns, ["issued_for".toList, "issued_by".toList], rows⟩

/-- The table of roots with these rows. -/
abbrev rtbl (rows : List (List Value)) : Table := ⟨rootColumns, [], rows⟩

/-- Both tables. -/
abbrev tabs (rows roots : List (List Value)) : List (Str × Table) := [("trust_relations".toList, tbl rows), ("roots".toList, rtbl roots)]

omit [Env] in
theorem lookup_rel (rows roots : List (List Value)) : (tabs rows roots).lookup "trust_relations".toList = some (tbl rows) := rfl

set_option maxRecDepth 100000 in
omit [Env] in
theorem lookup_root (rows roots : List (List Value)) : (tabs rows roots).lookup "roots".toList = some (rtbl roots) := by
  change List.lookup "roots".toList [("trust_relations".toList, _), ("roots".toList, _)] = _
  rw [List.lookup_cons, show ("roots".toList == "trust_relations".toList) = false by decide +kernel]
  rfl

set_option maxRecDepth 100000 in
omit [Env] in
theorem set_rel (rows rows' roots : List (List Value)) : setTable "trust_relations".toList (tbl rows') (tabs rows roots) = tabs rows' roots := by
  change [if "trust_relations".toList = "trust_relations".toList then _ else _, if "roots".toList = "trust_relations".toList then _ else _] = _
  rw [if_pos rfl, if_neg (by decide +kernel)]

set_option maxRecDepth 100000 in
omit [Env] in
theorem set_root (rows roots roots' : List (List Value)) : setTable "roots".toList (rtbl roots') (tabs rows roots) = tabs rows roots' := by
  change [if "trust_relations".toList = "roots".toList then _ else _, if "roots".toList = "roots".toList then _ else _] = _
  rw [if_pos rfl, if_neg (by decide +kernel)]

omit [Env] in
theorem relRows_tabs (rows roots : List (List Value)) (fs : List Bool) : relRows ⟨tabs rows roots, fs⟩ = rows := rfl

omit [Env] in
theorem rootRows_tabs (rows roots : List (List Value)) (fs : List Bool) : rootRows ⟨tabs rows roots, fs⟩ = roots := by
  unfold rootRows
  rw [lookup_root]
  rfl

omit [Env] in
theorem all_columns {t t' : Table} (h : t.columns = t'.columns) (cs : List Cond) (ps row : List Value) : t.all cs ps row = t'.all cs ps row := by
  induction cs generalizing ps with
  | nil => cases ps <;> rfl
  | cons c cs ih =>
    cases ps with
    | nil => rfl
    | cons p ps =>
      rw [Table.all, Table.all, ih]
      congr 1
      unfold Table.cond Table.column
      rw [h]

omit [Env] in
theorem all_for_type (rows : List (List Value)) (k : Str) (t : Int) (r : RelRow) :
    (tbl rows).all [⟨"issued_for".toList, ['=']⟩, ⟨"relation_type".toList, ['=']⟩] [.string k, .integer t] (ofRelRow r)
      = decide (r.issuedFor = k ∧ r.relationType = t) := by
  refine (all_columns (t := tbl rows) (t' := relationsTable []) rfl _ _ _).trans ?_
  exact relations_for_type _ _ _ _

omit [Env] in
theorem all_expired (rows : List (List Value)) (now t : Int) (r : RelRow) :
    (tbl rows).all [⟨"expires_at".toList, ['<', '=']⟩, ⟨"relation_type".toList, ['=']⟩] [.integer now, .integer t] (ofRelRow r)
      = decide (r.expiresAt ≤ now ∧ r.relationType = t) := by
  refine (all_columns (t := tbl rows) (t' := relationsTable []) rfl _ _ _).trans ?_
  exact relations_expired _ _ _ _

omit [Env] in
theorem all_by_for (rows : List (List Value)) (b f : Str) (row : List Value) :
    (tbl rows).all [⟨"issued_by".toList, ['=']⟩, ⟨"issued_for".toList, ['=']⟩] [.string b, .string f] row
      = decide (row[1]? = some (.string f) ∧ row[2]? = some (.string b)) := by
  refine (all_columns (t := tbl rows) (t' := relationsTable []) rfl _ _ _).trans ?_
  simp only [Table.all, Table.cond, column_for, column_by, if_true, Affinity.apply, Value.eq, Bool.and_true]
  rcases row[1]? with _ | v <;> rcases row[2]? with _ | v'
  · simp
  · simp
  · simp
  · rw [Bool.eq_iff_iff]
    dsimp only
    simp only [Bool.and_eq_true, decide_eq_true_eq, Option.some.injEq]
    constructor
    · rintro ⟨h1, h2⟩
      exact ⟨(of_decide_eq_true h2).2, (of_decide_eq_true h1).2⟩
    · rintro ⟨rfl, rfl⟩
      exact ⟨decide_eq_true ⟨by simp, rfl⟩, decide_eq_true ⟨by simp, rfl⟩⟩

omit [Env] in
theorem sameKey_iff (rows : List (List Value)) (row : List Value) (r : RelRow) :
    (tbl rows).sameKey row (ofRelRow r) = decide (row[1]? = some (.string r.issuedFor) ∧ row[2]? = some (.string r.issuedBy)) := by
  unfold Table.sameKey
  change (_ && List.all ["issued_for".toList, "issued_by".toList] _) = _
  have h1 : (tbl rows).column "issued_for".toList = some (1, .text) := column_for []
  have h2 : (tbl rows).column "issued_by".toList = some (2, .text) := column_by []
  simp only [List.all_cons, h1, h2, ofRelRow, List.getElem?_cons_succ, List.getElem?_cons_zero, Value.eq]
  rcases row[1]? with _ | v <;> rcases row[2]? with _ | v'
  · simp
  · simp
  · simp
  · rw [Bool.eq_iff_iff]
    simp only [List.all_nil, Bool.and_true, Bool.and_eq_true, decide_eq_true_eq, Option.some.injEq]
    constructor
    · rintro ⟨-, ⟨-, rfl⟩, -, rfl⟩
      exact ⟨rfl, rfl⟩
    · rintro ⟨rfl, rfl⟩
      exact ⟨by simp, ⟨by simp, rfl⟩, by simp, rfl⟩

omit [Env] in
theorem project_row (rows : List (List Value)) {row : List Value} (h : row.length = 6) : (tbl rows).project relationNames row = row := by
  match row, h with
  | [a, b, c, d, e, f], _ =>
    change List.filterMap _ ["relation_type".toList, "issued_for".toList, "issued_by".toList, "issued_at".toList,
      "expires_at".toList, "signature".toList] = _
    have h0 : (tbl rows).column "relation_type".toList = some (0, .integer) := column_type []
    have h1 : (tbl rows).column "issued_for".toList = some (1, .text) := column_for []
    have h2 : (tbl rows).column "issued_by".toList = some (2, .text) := column_by []
    have h3 : (tbl rows).column "issued_at".toList = some (3, .integer) := column_at []
    have h4 : (tbl rows).column "expires_at".toList = some (4, .integer) := column_expires []
    have h5 : (tbl rows).column "signature".toList = some (5, .text) := column_signature []
    simp only [List.filterMap_cons, h0, h1, h2, h3, h4, h5, Option.bind_some]
    rfl

omit [Env] in
theorem ofRelRow_asRelRow {row : List Value} {r : RelRow} (h : asRelRow row = some r) : ofRelRow r = row := by
  unfold asRelRow at h
  split at h
  · cases h
    rfl
  · cases h

theorem order_perm (rows l : List (List Value)) (k : Str) (ps : List Value) : ((tbl rows).order (.string k :: ps) l).Perm l := by
  unfold Table.order
  rw [if_neg (by intro h; cases h)]
  dsimp only
  refine ((Env.scan_perm k _).map ofRelRow).append_right _ |>.trans ?_
  induction l with
  | nil => exact .refl _
  | cons row l ih =>
    rcases h : asRelRow row with _ | r
    · rw [List.filterMap_cons_none h, List.filter_cons_of_pos (by rw [h]; rfl)]
      exact List.perm_middle.trans (ih.cons _)
    · rw [List.filterMap_cons_some h, List.filter_cons_of_neg (by rw [h]; simp), List.map_cons, ofRelRow_asRelRow h]
      exact ih.cons _

omit [Env] in
theorem has_rel (rows : List (List Value)) (cs : List Str) (h : ∀ c ∈ cs, c ∈ relationNames) : (tbl rows).has cs = true :=
  has_relations [] cs h

omit [Env] in
theorem has_root (rows : List (List Value)) (cs : List Str) (h : ∀ c ∈ cs, c ∈ rootNames) : (rtbl rows).has cs = true :=
  has_roots [] cs h

/-! ### Statements -/

theorem query_cases {text : Str} {s : Stmt} {params : List Value} {rows : List (List Value)} {tables : List (Str × Table)} {f : File}
    (hp : prepare text = some s) (he : execute s params f.tables = some (rows, tables)) :
    ∃ fs, (fs ≠ [] → f.faults ≠ []) ∧ (query text params f = (.ok rows, ⟨tables, fs⟩) ∨
      f.faults ≠ [] ∧ query text params f = (.err .sqliteError, ⟨f.tables, fs⟩)) := by
  obtain ⟨ts, faults⟩ := f
  match faults with
  | [] =>
    refine ⟨[], (fun h => absurd rfl h), .inl ?_⟩
    change (match prepare text with | .none => _ | some s => _) = _
    rw [hp]
    change (match execute s params ts with | some (rows, tables) => _ | .none => _) = _
    rw [he]
  | true :: fs => exact ⟨fs, (fun _ => by simp), .inr ⟨by simp, rfl⟩⟩
  | false :: fs =>
    refine ⟨fs, (fun _ => by simp), .inl ?_⟩
    change (match prepare text with | .none => _ | some s => _) = _
    rw [hp]
    change (match execute s params ts with | some (rows, tables) => _ | .none => _) = _
    rw [he]

/-- The rows selected for a key and a type. -/
def forType (rows : List (List Value)) (k : Str) (t : Int) : List (List Value) :=
  (tbl rows).order [.string k, .integer t]
    (rows.filter ((tbl rows).all [⟨"issued_for".toList, ['=']⟩, ⟨"relation_type".toList, ['=']⟩] [.string k, .integer t]))

/-- The rows selected for a pair of keys. -/
def forPair (rows : List (List Value)) (b f : Str) : List (List Value) :=
  (tbl rows).order [.string b, .string f]
    (rows.filter ((tbl rows).all [⟨"issued_by".toList, ['=']⟩, ⟨"issued_for".toList, ['=']⟩] [.string b, .string f]))

set_option maxRecDepth 100000 in
theorem exec_forType {rows : List (List Value)} (roots : List (List Value)) (hl : ∀ row ∈ rows, row.length = 6) (k : Str) (t : Int) :
    execute (.select relationNames "trust_relations".toList [⟨"issued_for".toList, ['=']⟩, ⟨"relation_type".toList, ['=']⟩])
      [.string k, .integer t] (tabs rows roots) = some (forType rows k t, tabs rows roots) := by
  simp only [execute, lookup_rel]
  rw [if_pos ⟨has_rel _ _ (by decide +kernel), rfl⟩]
  refine congrArg (fun l => some (l, _)) ((List.map_congr_left fun row hr => ?_).trans (List.map_id _))
  exact project_row rows (hl row (List.mem_of_mem_filter ((order_perm _ _ _ _).mem_iff.mp hr)))

set_option maxRecDepth 100000 in
theorem exec_forPair {rows : List (List Value)} (roots : List (List Value)) (hl : ∀ row ∈ rows, row.length = 6) (b f : Str) :
    execute (.select relationNames "trust_relations".toList [⟨"issued_by".toList, ['=']⟩, ⟨"issued_for".toList, ['=']⟩])
      [.string b, .string f] (tabs rows roots) = some (forPair rows b f, tabs rows roots) := by
  simp only [execute, lookup_rel]
  rw [if_pos ⟨has_rel _ _ (by decide +kernel), rfl⟩]
  refine congrArg (fun l => some (l, _)) ((List.map_congr_left fun row hr => ?_).trans (List.map_id _))
  exact project_row rows (hl row (List.mem_of_mem_filter ((order_perm _ _ _ _).mem_iff.mp hr)))

theorem exec_insert (rows roots : List (List Value)) (r : RelRow) :
    execute (.insertOrReplace "trust_relations".toList 6) (ofRelRow r) (tabs rows roots)
      = some ([], tabs (rows.filter (fun row => ¬ (tbl rows).sameKey row (ofRelRow r)) ++ [ofRelRow r]) roots) := by
  simp only [execute, lookup_rel]
  rw [if_pos ⟨rfl, rfl⟩]
  have hrow : ((tbl rows).columns.zip (ofRelRow r)).map (fun cp => cp.1.2.apply cp.2) = ofRelRow r := rfl
  rw [hrow]
  exact congrArg (fun t => some ([], t)) (set_rel rows _ roots)

set_option maxRecDepth 100000 in
theorem exec_delete (rows roots : List (List Value)) (now t : Int) :
    execute (.delete "trust_relations".toList [⟨"expires_at".toList, ['<', '=']⟩, ⟨"relation_type".toList, ['=']⟩])
      [.integer now, .integer t] (tabs rows roots)
    = some ([], tabs (rows.filter (fun row => ¬ (tbl rows).all [⟨"expires_at".toList, ['<', '=']⟩, ⟨"relation_type".toList, ['=']⟩]
      [.integer now, .integer t] row)) roots) := by
  simp only [execute, lookup_rel]
  rw [if_pos ⟨has_rel _ _ (by decide +kernel), rfl⟩]
  exact congrArg (fun t => some ([], t)) (set_rel rows _ roots)

/-- The rows of a root. -/
def rootsFor (roots : List RootRow) (k : Str) : List RootRow := roots.filter (fun r => r.publicKey = k)

set_option maxRecDepth 100000 in
theorem exec_root (rows : List (List Value)) (roots : List RootRow) (k : Str) :
    execute (.select rootNames "roots".toList [⟨"public_key".toList, ['=']⟩]) [.string k] (tabs rows (roots.map ofRootRow))
    = some ((rootsFor roots k).map ofRootRow, tabs rows (roots.map ofRootRow)) := by
  simp only [execute, lookup_root]
  rw [if_pos ⟨has_root _ _ (by decide +kernel), rfl⟩]
  change some (List.map _ (List.filter ((rootsTable roots).all _ _) (List.map ofRootRow roots)), _) = _
  rw [List.filter_map, List.map_map]
  refine congrArg (fun l => some (l, _)) ?_
  rw [show roots.filter ((rootsTable roots).all [⟨"public_key".toList, ['=']⟩] [.string k] ∘ ofRootRow)
    = roots.filter (fun r => r.publicKey = k) from List.filter_congr (fun r _ => roots_key roots k r)]
  exact List.map_congr_left (fun r _ => project_root _ r)

set_option maxRecDepth 100000 in
theorem exec_roots (rows : List (List Value)) (roots : List RootRow) :
    execute (.select rootNames "roots".toList []) [] (tabs rows (roots.map ofRootRow))
    = some (roots.map ofRootRow, tabs rows (roots.map ofRootRow)) := by
  simp only [execute, lookup_root]
  rw [if_pos ⟨has_root _ _ (by decide +kernel), rfl⟩]
  change some (List.map _ (List.filter (fun _ => true) (List.map ofRootRow roots)), _) = _
  rw [List.filter_true, List.map_map]
  exact congrArg (fun l => some (l, _)) (List.map_congr_left (fun r _ => project_root _ r))

theorem exec_setRoot (rows roots : List (List Value)) (r : RootRow) :
    execute (.insertOrReplace "roots".toList 2) (ofRootRow r) (tabs rows roots) = some ([], tabs rows (roots ++ [ofRootRow r])) := by
  simp only [execute, lookup_root]
  rw [if_pos ⟨rfl, rfl⟩]
  have hrow : ((rtbl roots).columns.zip (ofRootRow r)).map (fun cp => cp.1.2.apply cp.2) = ofRootRow r := rfl
  rw [hrow]
  refine Eq.trans ?_ (congrArg (fun t => some ([], t)) (set_root rows roots (roots ++ [ofRootRow r])))
  change some ([], setTable _ ⟨rootColumns, [], List.filter (fun _ => true) roots ++ _⟩ _) = _
  rw [List.filter_true]

/-! ### Reading rows -/

/-- The trust or revocation of a row, if it can be read. -/
def parsed (row : List Value) : Option TrustRelation :=
  match parseRelation row with
  | .ok r => some r
  | _ => none

/-- A row of a damaged file. -/
def Good (row : List Value) : Prop := (∃ r : TrustRelation, r.Whole ∧ row = rowOf r) ∨ Garbled row

theorem Good.length {row : List Value} (h : Good row) : row.length = 6 := by
  rcases h with ⟨r, -, rfl⟩ | h
  · rfl
  · exact h.columns

theorem parsed_iff {row : List Value} (h : Good row) {r : TrustRelation} : parsed row = some r ↔ r.Whole ∧ row = rowOf r := by
  unfold parsed
  rcases h with ⟨q, hq, rfl⟩ | h
  · rw [parse_written hq]
    constructor
    · intro e
      cases e
      exact ⟨hq, rfl⟩
    · rintro ⟨hr, e⟩
      have h1 := parse_written hq
      rw [e, parse_written hr] at h1
      cases h1
      rfl
  · obtain ⟨e, he⟩ := parse_garbled h
    rw [he]
    constructor
    · intro e; cases e
    · rintro ⟨hr, rfl⟩
      rw [parse_written hr] at he
      cases he

theorem parseRows_good {rows : List (List Value)} (h : ∀ row ∈ rows, Good row) : parseRows rows = .ok (rows.filterMap parsed) := by
  induction rows with
  | nil => rfl
  | cons row rows ih =>
    have ih := ih fun r hr => h r (List.mem_cons_of_mem _ hr)
    rw [parseRows, ih]
    rcases h row (by simp) with ⟨q, hq, rfl⟩ | hg
    · rw [parse_written hq, List.filterMap_cons_some (b := q) (by unfold parsed; rw [parse_written hq])]
      rfl
    · obtain ⟨e, he⟩ := parse_garbled hg
      rw [he, List.filterMap_cons_none (by unfold parsed; rw [he])]

theorem rowOf_inj {r q : TrustRelation} (hr : r.Whole) (hq : q.Whole) (e : rowOf r = rowOf q) : r = q := by
  have h := parse_written hr
  rw [e, parse_written hq] at h
  cases h
  rfl

theorem rowOf_trunc (r : TrustRelation) : rowOf r.trunc = rowOf r := by
  unfold rowOf
  rw [toRow_trunc]

theorem mem_forType {rows : List (List Value)} {r : TrustRelation} {k : PublicKey} {t : Int} :
    rowOf r ∈ forType rows (keyText k) t ↔ rowOf r ∈ rows ∧ r.issuedFor = k ∧ (Sqlite.toRow r).relationType = t := by
  unfold forType
  rw [(order_perm _ _ _ _).mem_iff, List.mem_filter, rowOf, all_for_type, decide_eq_true_eq, toRow_issuedFor, keyText_inj_iff]

/-- The trusts or revocations listed for a key. -/
def listing (rows : List (List Value)) (k : PublicKey) (t : Int) : List TrustRelation := (forType rows (keyText k) t).filterMap parsed

theorem forType_sub {rows : List (List Value)} {k : Str} {t : Int} {row : List Value} (h : row ∈ forType rows k t) : row ∈ rows :=
  List.mem_of_mem_filter ((order_perm _ _ _ _).mem_iff.mp h)

theorem forPair_sub {rows : List (List Value)} {b f : Str} {row : List Value} (h : row ∈ forPair rows b f) :
    row ∈ rows ∧ row[1]? = some (.string f) ∧ row[2]? = some (.string b) := by
  have h := List.mem_filter.mp ((order_perm _ _ _ _).mem_iff.mp h)
  rw [all_by_for, decide_eq_true_eq] at h
  exact h

theorem mem_listing {rows : List (List Value)} (h : ∀ row ∈ rows, Good row) {k : PublicKey} {t : Int} {r : TrustRelation} :
    r ∈ listing rows k t ↔ r.Whole ∧ rowOf r ∈ rows ∧ r.issuedFor = k ∧ (Sqlite.toRow r).relationType = t := by
  unfold listing
  rw [List.mem_filterMap]
  constructor
  · rintro ⟨row, hm, hp⟩
    obtain ⟨hw, rfl⟩ := (parsed_iff (h row (forType_sub hm))).mp hp
    exact ⟨hw, mem_forType.mp hm⟩
  · rintro ⟨hw, h'⟩
    exact ⟨rowOf r, mem_forType.mpr h', (parsed_iff (h _ h'.1)).mpr ⟨hw, rfl⟩⟩

/-- No two rows with the same primary key. -/
def RowsKeyed (rows : List (List Value)) : Prop :=
  rows.Pairwise (fun r r' => ∀ a b, ¬ (r[1]? = some (.string a) ∧ r'[1]? = some (.string a) ∧ r[2]? = some (.string b) ∧ r'[2]? = some (.string b)))

theorem nodup_listing {rows : List (List Value)} (h : ∀ row ∈ rows, Good row) (hk : RowsKeyed rows) (k : PublicKey) (t : Int) :
    (listing rows k t).Nodup := by
  unfold listing List.Nodup
  rw [List.pairwise_filterMap]
  have hs : (forType rows (keyText k) t).Pairwise
      (fun r r' => ∀ a b, ¬ (r[1]? = some (.string a) ∧ r'[1]? = some (.string a) ∧ r[2]? = some (.string b) ∧ r'[2]? = some (.string b))) := by
    refine ((order_perm _ _ _ _).pairwise_iff ?_).mpr (hk.filter _)
    intro x y h a b e
    exact h a b ⟨e.2.1, e.1, e.2.2.2, e.2.2.1⟩
  refine hs.imp_of_mem ?_
  intro row row' hm hm' hn r hr r' hr' e
  subst e
  obtain ⟨-, rfl⟩ := (parsed_iff (h _ (forType_sub hm))).mp hr
  obtain ⟨-, rfl⟩ := (parsed_iff (h _ (forType_sub hm'))).mp hr'
  exact hn _ _ ⟨rfl, rfl, rfl, rfl⟩

theorem written_unique {rows : List (List Value)} (hk : RowsKeyed rows) {r q : TrustRelation} (hr : r.Whole) (hq : q.Whole)
    (h1 : rowOf r ∈ rows) (h2 : rowOf q ∈ rows) (hb : r.issuedBy = q.issuedBy) (hf : r.issuedFor = q.issuedFor) : r = q := by
  by_contra hne
  have hs : rowOf r ≠ rowOf q := fun e => hne (rowOf_inj hr hq e)
  refine pairwise_forall (fun x y h a b e => h a b ⟨e.2.1, e.1, e.2.2.2, e.2.2.1⟩) hk h1 h2 hs (keyText r.issuedFor) (keyText r.issuedBy) ⟨rfl, ?_, rfl, ?_⟩
  · rw [hf]; rfl
  · rw [hb]; rfl

/-! ### What is left of the file -/

variable {G : PublicKey → PublicKey → Prop} {f : File} {w : World}

theorem _root_.TG.Spec.Survives.good (h : Survives G f w) : ∀ row ∈ relRows f, Good row := h.rows

theorem _root_.TG.Spec.Survives.six (h : Survives G f w) : ∀ row ∈ relRows f, row.length = 6 := fun row hr => (h.good row hr).length

theorem _root_.TG.Spec.Survives.unique {w' : World} (h : Survives G f w) (h' : Survives G f w') : w' = w :=
  Spec.World.ext' (fun k => by rw [h.roots, h'.roots]) fun a b r => by rw [h.relation, h'.relation]

/-- The survivors depend on the tables only. -/
theorem _root_.TG.Spec.Survives.weather (h : Survives G f w) (fs : List Bool) : Survives G ⟨f.tables, fs⟩ w :=
  ⟨h.tables, h.rows, h.keyed, h.pairs, h.rootRows, h.relation, h.roots⟩

/-- The root rows, typed. -/
theorem _root_.TG.Spec.Survives.rootList (h : Survives G f w) : ∃ roots : List RootRow, Spec.rootRows f = roots.map ofRootRow ∧
    ∀ row ∈ roots, ∃ (k : PublicKey) (n : Nat), n ≤ 16 ∧ row = ⟨keyText k, n⟩ := by
  have h := h.rootRows
  generalize Spec.rootRows f = l at h
  induction l with
  | nil => exact ⟨[], rfl, fun _ h => by cases h⟩
  | cons row rows ih =>
    obtain ⟨roots, e, hr⟩ := ih fun r hr => h r (List.mem_cons_of_mem _ hr)
    obtain ⟨k, n, hn, e'⟩ := h row (by simp)
    refine ⟨⟨keyText k, n⟩ :: roots, by rw [e, e']; rfl, fun r hm => ?_⟩
    rcases List.mem_cons.mp hm with rfl | hm
    · exact ⟨k, n, hn, rfl⟩
    · exact hr r hm

open Classical in
/-- The surviving part of a file. -/
noncomputable def worldOf (f : File) : World where
  roots k := (Spec.rootRows f).findSome? (fun row => match row with
    | [.string s, .integer n] => if s = keyText k then some (16 - n.toNat) else none
    | _ => none)
  relation a b := if h : ∃ r : TrustRelation, r.Whole ∧ rowOf r ∈ relRows f ∧ r.issuedBy = a ∧ r.issuedFor = b then some h.choose else none

theorem worldOf_relation (hk : RowsKeyed (relRows f)) (a b : PublicKey) (r : TrustRelation) :
    (worldOf f).relation a b = some r ↔ r.Whole ∧ rowOf r ∈ relRows f ∧ r.issuedBy = a ∧ r.issuedFor = b := by
  unfold worldOf
  dsimp only
  split
  · rename_i h
    have hc := h.choose_spec
    constructor
    · intro e
      cases e
      exact hc
    · intro h'
      rw [written_unique hk hc.1 h'.1 hc.2.1 h'.2.1 (hc.2.2.1.trans h'.2.2.1.symm) (hc.2.2.2.trans h'.2.2.2.symm)]
  · rename_i h
    exact ⟨(fun e => by cases e), fun e => absurd ⟨r, e⟩ h⟩

theorem _root_.TG.Spec.Survives.world (h : Survives G f w) : worldOf f = w :=
  Spec.World.ext' (fun k => (h.roots k).symm) fun a b r => by rw [h.relation, worldOf_relation h.keyed]

/-- The trust in a relation. -/
abbrev authOf : TrustRelation → Option Auth
  | .auth a => some a
  | .revocation _ => none

/-- The revocation in a relation. -/
abbrev revOf : TrustRelation → Option Revocation
  | .auth _ => none
  | .revocation r => some r

/-- How to look at a damaged file. -/
noncomputable def look (G : PublicKey → PublicKey → Prop) (faulty : Prop) : Look File where
  Ok f := Survives G f (worldOf f) ∧ (f.faults ≠ [] → faulty)
  world := worldOf
  auths f k := (listing (relRows f) k authType).filterMap authOf
  revs f k := (listing (relRows f) k revocationType).filterMap revOf
  roots f := (Spec.rootRows f).filterMap (fun row => match row with
    | .string s :: _ => match PublicKey.fromBase58 s with
      | .ok k => some k
      | _ => none
    | _ => none)

variable {faulty faulty' : Prop}

theorem same_weather {fs : List Bool} (h : (look G faulty).Ok f) (hf : fs ≠ [] → f.faults ≠ []) : (look G faulty).Same f ⟨f.tables, fs⟩ where
  ok := ⟨h.1.weather fs, fun hn => h.2 (hf hn)⟩
  world := rfl
  auths := rfl
  revs := rfl
  roots := rfl

theorem _root_.TG.Spec.Survives.exec (h : Survives G f w) {s : Stmt} {params : List Value} {x : Option (List (List Value) × List (Str × Table))}
    (he : execute s params (tabs (relRows f) (Spec.rootRows f)) = x) : execute s params f.tables = x := by
  rw [h.tables]
  exact he

theorem getRelations_cases (h : Survives G f w) (k : PublicKey) (t : Int) :
    ∃ fs, (fs ≠ [] → f.faults ≠ []) ∧ (SqlStorage.getRelations k t f = (.ok (listing (relRows f) k t), ⟨f.tables, fs⟩) ∨
      f.faults ≠ [] ∧ SqlStorage.getRelations k t f = (.err .sqliteError, ⟨f.tables, fs⟩)) := by
  obtain ⟨fs, hf, hq⟩ := query_cases prepare_selectRelations (h.exec (exec_forType (Spec.rootRows f) h.six (keyText k) t))
  refine ⟨fs, hf, ?_⟩
  unfold SqlStorage.getRelations
  rw [M.bind_run]
  rcases hq with hq | ⟨hn, hq⟩
  · left
    rw [hq]
    change (parseRows _, _) = _
    rw [parseRows_good fun row hr => h.good row (forType_sub hr)]
    exact congrArg (fun t => (Outcome.ok _, (⟨t, fs⟩ : File))) h.tables.symm
  · exact .inr ⟨hn, by rw [hq]⟩

theorem reads_relations (hh : faulty → faulty') (h : (look G faulty).Ok f) (k : PublicKey) (t : Int) {α : Type} (g : TrustRelation → Option α) :
    (look G faulty).Reads faulty' f (SqlStorage.getRelations k t >>= fun rs => pure (rs.filterMap g)) ((listing (relRows f) k t).filterMap g) := by
  obtain ⟨fs, hf, hq⟩ := getRelations_cases h.1 k t
  refine ⟨_, same_weather h hf, ?_⟩
  rw [M.bind_run]
  rcases hq with hq | ⟨hn, hq⟩
  · left
    rw [hq]
    rfl
  · exact .inr ⟨hh (h.2 hn), .sqliteError, by rw [hq]⟩

theorem type_auth {r : TrustRelation} : (Sqlite.toRow r).relationType = authType ↔ ∃ a, r = .auth a := by
  cases r with
  | auth a => exact ⟨fun _ => ⟨a, rfl⟩, fun _ => rfl⟩
  | revocation v => exact ⟨fun h => absurd h (by change ¬ revocationType = authType; decide), fun ⟨a, h⟩ => by cases h⟩

theorem type_rev {r : TrustRelation} : (Sqlite.toRow r).relationType = revocationType ↔ ∃ v, r = .revocation v := by
  cases r with
  | revocation a => exact ⟨fun _ => ⟨a, rfl⟩, fun _ => rfl⟩
  | auth v => exact ⟨fun h => absurd h (by change ¬ authType = revocationType; decide), fun ⟨a, h⟩ => by cases h⟩

omit [Env] in
theorem filterMap_nodup {α β : Type} {g : α → Option β} {l : List α} (h : l.Nodup) (hg : ∀ a a' b, g a = some b → g a' = some b → a = a') :
    (l.filterMap g).Nodup := by
  unfold List.Nodup
  rw [List.pairwise_filterMap]
  refine List.Pairwise.imp ?_ h
  rintro a a' hne b hb b' hb' rfl
  exact hne (hg a a' _ hb hb')

/-- The rest of a file after a trust or revocation has been written. -/
theorem _root_.TG.Spec.Survives.put (h : Survives G f w) (q : TrustRelation) (fs : List Bool)
    (hn : ∀ p, w.relation q.issuedBy q.issuedFor = some p → p.issuedAt.total < q.issuedAt.total) :
    Survives G ⟨tabs ((relRows f).filter (fun row => ¬ (tbl (relRows f)).sameKey row (rowOf q)) ++ [rowOf q]) (Spec.rootRows f), fs⟩ (w.update q) := by
  have hkey : ∀ row, (tbl (relRows f)).sameKey row (rowOf q) = true ↔
      row[1]? = some (.string (keyText q.issuedFor)) ∧ row[2]? = some (.string (keyText q.issuedBy)) := by
    intro row
    rw [rowOf, sameKey_iff, decide_eq_true_eq]
    rfl
  have hmem : ∀ row, row ∈ (relRows f).filter (fun row => ¬ (tbl (relRows f)).sameKey row (rowOf q)) ++ [rowOf q] ↔
      (row ∈ relRows f ∧ ¬ (row[1]? = some (.string (keyText q.issuedFor)) ∧ row[2]? = some (.string (keyText q.issuedBy)))) ∨ row = rowOf q := by
    intro row
    rw [List.mem_append, List.mem_filter, decide_eq_true_eq, hkey, List.mem_singleton]
  have hq : (q.trunc).Whole := q.trunc_whole
  refine ⟨?_, ?_, ?_, ?_, ?_, ?_, ?_⟩
  · rw [relRows_tabs, rootRows_tabs]
  · rw [relRows_tabs]
    intro row hr
    rcases (hmem row).mp hr with hr | rfl
    · exact h.rows row hr.1
    · exact .inl ⟨q.trunc, hq, (rowOf_trunc q).symm⟩
  · rw [relRows_tabs, List.pairwise_append]
    refine ⟨h.keyed.filter _, by simp, fun row hr row' hr' a b e => ?_⟩
    obtain rfl := List.mem_singleton.mp hr'
    have hr := (List.mem_filter.mp hr).2
    rw [decide_eq_true_eq, hkey] at hr
    have e1 : some (Value.string (keyText q.issuedFor)) = some (.string a) := e.2.1
    have e2 : some (Value.string (keyText q.issuedBy)) = some (.string b) := e.2.2.2
    exact hr ⟨e.1.trans e1.symm, e.2.2.1.trans e2.symm⟩
  · rw [relRows_tabs]
    intro row hr hg a b e1 e2
    rcases (hmem row).mp hr with hr | rfl
    · exact h.pairs row hr.1 hg a b e1 e2
    · obtain ⟨e, he⟩ := parse_garbled hg
      rw [← rowOf_trunc, parse_written hq] at he
      cases he
  · rw [rootRows_tabs]
    exact h.rootRows
  · intro a b r
    rw [relRows_tabs, hmem]
    unfold World.update
    dsimp only
    have hr12 : (rowOf r)[1]? = some (.string (keyText r.issuedFor)) ∧ (rowOf r)[2]? = some (.string (keyText r.issuedBy)) := ⟨rfl, rfl⟩
    by_cases hp : a = q.issuedBy ∧ b = q.issuedFor
    · obtain ⟨rfl, rfl⟩ := hp
      rw [if_pos ⟨rfl, rfl, hn⟩]
      constructor
      · intro e
        cases e
        exact ⟨hq, .inr (rowOf_trunc q), q.trunc_issuedBy, q.trunc_issuedFor⟩
      · rintro ⟨hw, ⟨-, hne⟩ | he, h1, h2⟩
        · refine absurd ?_ hne
          rw [← h1, ← h2]
          exact hr12
        · rw [rowOf_inj hw hq (he.trans (rowOf_trunc q).symm)]
    · rw [if_neg fun h => hp ⟨h.1, h.2.1⟩, h.relation]
      constructor
      · rintro ⟨hw, hm, rfl, rfl⟩
        refine ⟨hw, .inl ⟨hm, fun e => hp ?_⟩, rfl, rfl⟩
        rw [hr12.1, hr12.2] at e
        simp only [Option.some.injEq, Value.string.injEq, keyText_inj_iff] at e
        exact ⟨e.2, e.1⟩
      · rintro ⟨hw, ⟨hm, -⟩ | he, rfl, rfl⟩
        · exact ⟨hw, hm, rfl, rfl⟩
        · have := rowOf_inj hw hq (he.trans (rowOf_trunc q).symm)
          rw [this, q.trunc_issuedBy, q.trunc_issuedFor] at hp
          exact absurd ⟨rfl, rfl⟩ hp
  · intro k
    rw [rootRows_tabs]
    exact h.roots k

theorem update_old {q : TrustRelation} (h : ¬ ∀ p, w.relation q.issuedBy q.issuedFor = some p → p.issuedAt.total < q.issuedAt.total) :
    w.update q = w := by
  refine Spec.World.ext' (fun k => rfl) fun a b r => ?_
  unfold World.update
  dsimp only
  rw [if_neg]
  rintro ⟨rfl, rfl, h'⟩
  exact h h'

theorem insert_writes (hh : faulty → faulty') (h : (look G faulty).Ok f) (q : TrustRelation)
    (hn : ∀ p, (worldOf f).relation q.issuedBy q.issuedFor = some p → p.issuedAt.total < q.issuedAt.total) :
    (look G faulty).Writes faulty' f (SqlStorage.insert q) ((worldOf f).update q) := by
  obtain ⟨fs, hf, hq⟩ := query_cases prepare_insertRelation (h.1.exec (exec_insert (relRows f) (Spec.rootRows f) (Sqlite.toRow q)))
  have hp : insert q = query insertRelation (ofRelRow (Sqlite.toRow q)) >>= fun _ => pure () := by cases q <;> rfl
  rw [hp]
  have hs := h.1.put q fs hn
  rcases hq with hq | ⟨hne, hq⟩
  · refine ⟨_, ⟨?_, fun hn => h.2 (hf hn)⟩, .inl ⟨by rw [M.bind_run, hq]; rfl, hs.world⟩⟩
    rw [← hs.world] at hs
    exact hs
  · exact ⟨_, (same_weather h hf).ok, .inr ⟨hh (h.2 hne), ⟨_, by rw [M.bind_run, hq]⟩, rfl⟩⟩

/-- Reading the relation of a pair of keys. -/
theorem getRelation_cases (h : Survives G f w) (a b : PublicKey) :
    ∃ fs, (fs ≠ [] → f.faults ≠ []) ∧ (SqlStorage.getRelation b a f = (.ok (w.relation a b), ⟨f.tables, fs⟩) ∨
      (f.faults ≠ [] ∨ G a b) ∧ ∃ e, SqlStorage.getRelation b a f = (.err e, ⟨f.tables, fs⟩)) := by
  obtain ⟨fs, hf, hq⟩ := query_cases prepare_selectRelation (h.exec (exec_forPair (Spec.rootRows f) h.six (keyText a) (keyText b)))
  refine ⟨fs, hf, ?_⟩
  unfold SqlStorage.getRelation
  rw [M.bind_run]
  rcases hq with hq | ⟨hn, hq⟩
  · rw [hq]
    have ht : (⟨tabs (relRows f) (Spec.rootRows f), fs⟩ : File) = ⟨f.tables, fs⟩ := congrArg (fun t => (⟨t, fs⟩ : File)) h.tables.symm
    rw [ht]
    rcases hl : forPair (relRows f) (keyText a) (keyText b) with _ | ⟨row, rows⟩
    · left
      have : w.relation a b = none := by
        rw [Option.eq_none_iff_forall_ne_some]
        intro r hr
        obtain ⟨hw, hm, rfl, rfl⟩ := (h.relation _ _ _).mp hr
        have : rowOf r ∈ forPair (relRows f) (keyText r.issuedBy) (keyText r.issuedFor) := by
          unfold forPair
          rw [(order_perm _ _ _ _).mem_iff, List.mem_filter, all_by_for, decide_eq_true_eq]
          exact ⟨hm, rfl, rfl⟩
        rw [hl] at this
        cases this
      rw [this]
      rfl
    · have hm := forPair_sub (hl ▸ List.mem_cons_self : row ∈ forPair (relRows f) (keyText a) (keyText b))
      dsimp only
      rcases h.rows row hm.1 with ⟨r, hw, rfl⟩ | hg
      · left
        rw [M.bind_run, M.lift_run, parse_written hw]
        have e1 : some (Value.string (keyText r.issuedFor)) = some (.string (keyText b)) := hm.2.1
        have e2 : some (Value.string (keyText r.issuedBy)) = some (.string (keyText a)) := hm.2.2
        simp only [Option.some.injEq, Value.string.injEq, keyText_inj_iff] at e1 e2
        rw [(h.relation a b r).mpr ⟨hw, hm.1, e2, e1⟩]
        rfl
      · right
        obtain ⟨e, he⟩ := parse_garbled hg
        refine ⟨.inr (h.pairs row hm.1 hg a b hm.2.1 hm.2.2), e, ?_⟩
        rw [M.bind_run, M.lift_run, he]
  · exact .inr ⟨.inl hn, _, by rw [hq]⟩

theorem update_writes (hh : faulty → faulty') (q : TrustRelation) (hG : G q.issuedBy q.issuedFor → faulty') (h : (look G faulty).Ok f) :
    (look G faulty).Writes faulty' f (SqlStorage.updateRelation q) ((worldOf f).update q) := by
  obtain ⟨fs, hf, hq⟩ := getRelation_cases h.1 q.issuedBy q.issuedFor
  have hs := same_weather h hf
  unfold SqlStorage.updateRelation Look.Writes
  rw [M.bind_run]
  rcases hq with hq | ⟨hne, e, hq⟩
  · rw [hq]
    dsimp only
    have hins : (∀ p, (worldOf f).relation q.issuedBy q.issuedFor = some p → p.issuedAt.total < q.issuedAt.total) →
        (look G faulty).Writes faulty' ⟨f.tables, fs⟩ (SqlStorage.insert q) ((worldOf f).update q) :=
      fun hn => insert_writes (f := ⟨f.tables, fs⟩) hh hs.ok q hn
    have hold : ∀ p, (worldOf f).relation q.issuedBy q.issuedFor = some p → ¬ p.issuedAt.lt q.issuedAt = true →
        (look G faulty).Writes faulty' ⟨f.tables, fs⟩ (pure () : M File SqlError Unit) ((worldOf f).update q) := by
      intro p hp hn
      refine ⟨_, hs.ok, .inl ⟨rfl, ?_⟩⟩
      rw [update_old fun h => hn (Dur.lt_iff.mpr (h p hp))]
      rfl
    rcases hr : (worldOf f).relation q.issuedBy q.issuedFor with _ | (p | p)
    · exact hins fun p hp => by rw [hr] at hp; cases hp
    · dsimp only
      split
      · rename_i hl
        exact hins fun p' hp => by rw [hr] at hp; cases hp; exact Dur.lt_iff.mp hl
      · rename_i hl
        exact hold _ hr hl
    · dsimp only
      split
      · rename_i hl
        exact hins fun p' hp => by rw [hr] at hp; cases hp; exact Dur.lt_iff.mp hl
      · rename_i hl
        exact hold _ hr hl
  · rw [hq]
    exact ⟨_, hs.ok, .inr ⟨hne.elim (fun h' => hh (h.2 h')) hG, ⟨e, rfl⟩, rfl⟩⟩

/-! ### The other methods -/

theorem collect_writes (hh : faulty → faulty') (h : (look G faulty).Ok f) (now : Dur) :
    (look G faulty).Writes faulty' f (SqlStorage.removeExpired now) ((worldOf f).collect now) := by
  obtain ⟨fs, hf, hq⟩ := query_cases prepare_deleteExpired (h.1.exec (exec_delete (relRows f) (Spec.rootRows f) (asI64 now.secs) authType))
  unfold SqlStorage.removeExpired
  rcases hq with hq | ⟨hne, hq⟩
  · have hs : Survives G ⟨tabs ((relRows f).filter (fun row => ¬ (tbl (relRows f)).all
        [⟨"expires_at".toList, ['<', '=']⟩, ⟨"relation_type".toList, ['=']⟩] [.integer (asI64 now.secs), .integer authType] row)) (Spec.rootRows f), fs⟩
        ((worldOf f).collect now) := by
      refine ⟨?_, ?_, ?_, ?_, ?_, ?_, ?_⟩
      · rw [relRows_tabs, rootRows_tabs]
      · rw [relRows_tabs]
        exact fun row hr => h.1.rows row (List.mem_of_mem_filter hr)
      · rw [relRows_tabs]
        exact h.1.keyed.filter _
      · rw [relRows_tabs]
        exact fun row hr => h.1.pairs row (List.mem_of_mem_filter hr)
      · rw [rootRows_tabs]
        exact h.1.rootRows
      · intro a b r
        rw [Spec.World.collect_relation, h.1.relation, relRows_tabs, List.mem_filter, decide_eq_true_eq, rowOf, all_expired, decide_eq_true_eq, type_auth]
        constructor
        · rintro ⟨⟨hw, hm, h1, h2⟩, hl⟩
          refine ⟨hw, ⟨hm, ?_⟩, h1, h2⟩
          rintro ⟨he, x, rfl⟩
          have := hl x rfl
          unfold Spec.Live at this
          exact absurd he (Int.not_le.mpr this)
        · rintro ⟨hw, ⟨hm, hne⟩, h1, h2⟩
          refine ⟨⟨hw, hm, h1, h2⟩, ?_⟩
          rintro x rfl
          by_contra hl
          exact hne ⟨Int.not_lt.mp hl, x, rfl⟩
      · intro k
        rw [rootRows_tabs]
        exact h.1.roots k
    refine ⟨_, ⟨?_, fun hn => h.2 (hf hn)⟩, .inl ⟨by rw [M.bind_run, hq]; rfl, hs.world⟩⟩
    rw [← hs.world] at hs
    exact hs
  · exact ⟨_, (same_weather h hf).ok, .inr ⟨hh (h.2 hne), ⟨_, by rw [M.bind_run, hq]⟩, rfl⟩⟩

theorem setRoot_writes (hh : faulty → faulty') (h : (look G faulty).Ok f) (k : PublicKey) {n : Nat} (hn : n ≤ 16) :
    (look G faulty).Writes faulty' f (SqlStorage.setRootWeightFactor k n) ((worldOf f).setRoot k (16 - n)) := by
  obtain ⟨fs, hf, hq⟩ := query_cases prepare_insertRoot (h.1.exec (exec_setRoot (relRows f) (Spec.rootRows f) ⟨keyText k, (n : Int)⟩))
  have hp : SqlStorage.setRootWeightFactor k n = query insertRoot (ofRootRow ⟨keyText k, (n : Int)⟩) >>= fun _ => pure () := rfl
  rcases hq with hq | ⟨hne, hq⟩
  · have hs : Survives G ⟨tabs (relRows f) (Spec.rootRows f ++ [ofRootRow ⟨keyText k, (n : Int)⟩]), fs⟩ ((worldOf f).setRoot k (16 - n)) := by
      refine ⟨?_, ?_, ?_, ?_, ?_, ?_, ?_⟩
      · rw [relRows_tabs, rootRows_tabs]
      · rw [relRows_tabs]
        exact h.1.rows
      · rw [relRows_tabs]
        exact h.1.keyed
      · rw [relRows_tabs]
        exact h.1.pairs
      · rw [rootRows_tabs]
        intro row hr
        rcases List.mem_append.mp hr with hr | hr
        · exact h.1.rootRows row hr
        · exact ⟨k, n, hn, List.mem_singleton.mp hr⟩
      · intro a b r
        rw [relRows_tabs]
        exact h.1.relation a b r
      · intro a
        rw [rootRows_tabs, List.findSome?_append]
        unfold World.setRoot
        dsimp only
        rw [h.1.roots a]
        rcases (Spec.rootRows f).findSome? _ with _ | m
        · by_cases e : a = k
          · subst e
            rw [if_pos ⟨rfl, rfl⟩]
            simp [ofRootRow]
          · have : ¬ keyText k = keyText a := fun h => e (keyText_inj_iff.mp h).symm
            rw [if_neg fun h => e h.1]
            simp [ofRootRow, this]
        · rw [if_neg (by simp)]
          rfl
    refine ⟨_, ⟨?_, fun hn => h.2 (hf hn)⟩, .inl ⟨by rw [hp, M.bind_run, hq]; rfl, hs.world⟩⟩
    rw [← hs.world] at hs
    exact hs
  · exact ⟨_, (same_weather h hf).ok, .inr ⟨hh (h.2 hne), ⟨_, by rw [hp, M.bind_run, hq]⟩, rfl⟩⟩

/-- The first row of a root. -/
theorem first_root (roots : List RootRow) (k : PublicKey) :
    (roots.map ofRootRow).findSome? (fun row => match row with
      | [.string s, .integer n] => if s = keyText k then some (16 - n.toNat) else none
      | _ => none) = ((rootsFor roots (keyText k)).head?).map (fun r => 16 - r.weightFactor.toNat) := by
  unfold rootsFor
  induction roots with
  | nil => rfl
  | cons row rows ih =>
    rw [List.map_cons, List.findSome?_cons, ih]
    by_cases h : row.publicKey = keyText k
    · rw [List.filter_cons_of_pos (by simpa using h)]
      simp [ofRootRow, h]
    · rw [List.filter_cons_of_neg (by simpa using h)]
      simp [ofRootRow, h]

theorem parseRoots_ok {roots : List RootRow} (h : ∀ row ∈ roots, ∃ (k : PublicKey) (n : Nat), n ≤ 16 ∧ row = ⟨keyText k, n⟩) :
    parseRoots (roots.map ofRootRow) = .ok ((roots.map ofRootRow).filterMap (fun row => match row with
      | .string s :: _ => match PublicKey.fromBase58 s with
        | .ok k => some k
        | _ => none
      | _ => none)) := by
  induction roots with
  | nil => rfl
  | cons row rows ih =>
    have ih := ih fun r hr => h r (List.mem_cons_of_mem _ hr)
    obtain ⟨k, n, -, rfl⟩ := h row (by simp)
    rw [List.map_cons, parseRoots, ih, List.filterMap_cons_some (b := k) (by simp [ofRootRow, PublicKey.fromBase58_keyText])]
    simp [asString, ofRootRow, PublicKey.fromBase58_keyText]

/-- **C128.**  Apart from the damaged rows the file is a storage that keeps to the rules. -/
theorem contract (G : PublicKey → PublicKey → Prop) (hh : faulty → faulty') : ReadContract (σ := SqlError) (look G faulty) faulty' where
  auths_nodup f h k := by
    refine filterMap_nodup (nodup_listing h.1.good h.1.keyed k _) ?_
    rintro (a | r) (a' | r') b hb hb'
    · cases hb; cases hb'; rfl
    all_goals (first | (cases hb; done) | cases hb')
  mem_auths f h k a := by
    change a ∈ (listing (relRows f) k authType).filterMap authOf ↔ (worldOf f).relation _ _ = _
    rw [List.mem_filterMap, h.1.relation]
    constructor
    · rintro ⟨r, hr, e⟩
      obtain ⟨hw, hm, hf, ht⟩ := (mem_listing h.1.good).mp hr
      cases r with
      | auth x => cases e; exact ⟨hw, hm, rfl, hf⟩
      | revocation x => cases e
    · rintro ⟨hw, hm, -, hf⟩
      exact ⟨.auth a, (mem_listing h.1.good).mpr ⟨hw, hm, hf, rfl⟩, rfl⟩
  revs_nodup f h k := by
    refine filterMap_nodup (nodup_listing h.1.good h.1.keyed k _) ?_
    rintro (a | r) (a' | r') b hb hb'
    rotate_right
    · cases hb; cases hb'; rfl
    all_goals (first | (cases hb; done) | cases hb')
  mem_revs f h k a := by
    change a ∈ (listing (relRows f) k revocationType).filterMap revOf ↔ (worldOf f).relation _ _ = _
    rw [List.mem_filterMap, h.1.relation]
    constructor
    · rintro ⟨r, hr, e⟩
      obtain ⟨hw, hm, hf, ht⟩ := (mem_listing h.1.good).mp hr
      cases r with
      | revocation x => cases e; exact ⟨hw, hm, rfl, hf⟩
      | auth x => cases e
    · rintro ⟨hw, hm, -, hf⟩
      exact ⟨.revocation a, (mem_listing h.1.good).mpr ⟨hw, hm, hf, rfl⟩, rfl⟩
  mem_roots f h k := by
    change k ∈ (Spec.rootRows f).filterMap _ ↔ ((worldOf f).roots k).isSome
    rw [h.1.roots, List.findSome?_isSome_iff, List.mem_filterMap]
    refine exists_congr fun row => and_congr_right fun hr => ?_
    obtain ⟨k', n, -, rfl⟩ := h.1.rootRows row hr
    simp [PublicKey.fromBase58_keyText, keyText_inj_iff]
  getAuthorizations f h k := reads_relations hh h k authType authOf
  getRevocations f h k := reads_relations hh h k revocationType revOf
  rootKeys f h := by
    obtain ⟨roots, e, hr⟩ := h.1.rootList
    obtain ⟨fs, hf, hq⟩ := query_cases prepare_selectRoots (h.1.exec (by rw [e]; exact exec_roots (relRows f) roots))
    refine ⟨_, same_weather h hf, ?_⟩
    change SqlStorage.rootKeys f = _ ∨ faulty' ∧ ∃ e, SqlStorage.rootKeys f = _
    unfold SqlStorage.rootKeys
    rw [M.bind_run]
    rcases hq with hq | ⟨hn, hq⟩
    · left
      rw [hq]
      change (parseRoots _, _) = _
      rw [parseRoots_ok hr]
      change _ = (Outcome.ok ((Spec.rootRows f).filterMap _), _)
      rw [h.1.tables, e]
    · exact .inr ⟨hh (h.2 hn), _, by rw [hq]⟩
  getRootWeightFactor f h k := by
    obtain ⟨roots, e, hr⟩ := h.1.rootList
    obtain ⟨fs, hf, hq⟩ := query_cases prepare_selectRoot (h.1.exec (by rw [e]; exact exec_root (relRows f) roots (keyText k)))
    refine ⟨_, same_weather h hf, ?_⟩
    change SqlStorage.getRootWeightFactor k f = _ ∨ faulty' ∧ ∃ e, SqlStorage.getRootWeightFactor k f = _
    unfold SqlStorage.getRootWeightFactor
    rw [M.bind_run]
    rcases hq with hq | ⟨hn, hq⟩
    · left
      rw [hq]
      change _ = (Outcome.ok (((worldOf f).roots k).map _), _)
      have hroots : (worldOf f).roots k = ((rootsFor roots (keyText k)).head?).map (fun r => 16 - r.weightFactor.toNat) :=
        (h.1.roots k).trans (by rw [e]; exact first_root roots k)
      rw [hroots, h.1.tables, e]
      rcases hl : rootsFor roots (keyText k) with _ | ⟨row, rows⟩
      · simp only [List.map_nil, List.head?_nil, Option.map_none]
        rfl
      · have hm : row ∈ roots := List.mem_of_mem_filter (hl ▸ List.mem_cons_self)
        obtain ⟨k', n, hn, rfl⟩ := hr row hm
        have : (n : Int) < 2 ^ 32 := by omega
        simp only [List.map_cons, List.head?_cons, Option.map_some]
        rw [M.bind_run, M.lift_run, show asInteger .weightFactorConversionDB (ofRootRow ⟨keyText k', (n : Int)⟩) 1 = .ok (n : Int) from rfl]
        dsimp only
        rw [if_pos ⟨by omega, this⟩, show 16 - (16 - (n : Int).toNat) = n by omega]
        rfl
    · exact .inr ⟨hh (h.2 hn), _, by rw [hq]⟩
  removeExpired f h now := collect_writes hh h now
  ghostBound f h := by
    refine ⟨(relRows f).filterMap parsed, ?_, fun a b r hr => ?_⟩
    · refine (List.length_filterMap_le _ _).trans (le_of_eq ?_)
      change _ = SqlStorage.relationCount f
      unfold SqlStorage.relationCount
      rw [h.1.tables]
      rfl
    · obtain ⟨hw, hm, -⟩ := (h.1.relation a b r).mp hr
      exact List.mem_filterMap.mpr ⟨_, hm, (parsed_iff (h.1.good _ hm)).mpr ⟨hw, rfl⟩⟩

theorem takes (hh : faulty → faulty') {q : TrustRelation} (hG : G q.issuedBy q.issuedFor → faulty') : (look G faulty).Takes (σ := SqlError) faulty' q :=
  fun _ h => ⟨fun _ _ e => by subst e; exact update_writes hh _ hG h, fun _ e => by subst e; exact update_writes hh _ hG h⟩

theorem takesRoots (hh : faulty → faulty') : (look G faulty).TakesRoots (σ := SqlError) faulty' := fun _ h k _ hn => setRoot_writes hh h k hn

end Damage
end TG
