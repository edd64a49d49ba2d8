/-
C101: the SQL statements of the storage, as written in the source, do what the storage promises; a restart keeps the data.
-/
import Verif.Proofs.SqlStorage
import Verif.Spec.SqlRun
import Verif.Props.Machine

namespace TG
variable [Env]
open SqlStorage

theorem Op.callIn_db (op : Op) : (op.callIn : M Db TrustGraphError Answer) = op.call := by cases op <;> rfl

/-- Calls act alike on the two storages. -/
theorem Op.callIn_sim (op : Op) : Sim file Keyed op.call (op.callIn : M Sql.File TrustGraphError Answer) := by
  cases op with
  | setRoot pk n => exact .bind (represents.setRoot _ _) fun _ => .pure' _
  | addTrust t b now => exact .bind (represents.addTrust _ _ _) fun _ => .pure' _
  | add c now => exact .bind (represents.add _ _) fun _ => .pure' _
  | revoke r => exact .bind (represents.revoke' _) fun _ => .pure' _
  | weight pk now => exact .bind (represents.weight _ _) fun _ => .pure' _
  | weightFrom pk i now => exact .bind (represents.weightFrom _ _ _) fun _ => .pure' _
  | getAllCerts pk now => exact .bind (represents.getAllCerts _ _) fun _ => .pure' _
  | getAllCertsFrom pk i now => exact .bind (represents.getAllCertsFrom _ _ _) fun _ => .pure' _
  | getRevocations pk => exact .bind (represents.getRevocations' _) fun _ => .pure' _

/-- A statement fails if that is its fate, and otherwise is executed. -/
theorem query_cases {text : Str} {s : Sql.Stmt} {params : List Sql.Value} {f : Sql.File} {rows : List (List Sql.Value)}
    {tables : List (Str × Sql.Table)} (hp : Sql.prepare text = some s) (he : Sql.execute s params f.tables = some (rows, tables)) :
    (Sql.query text params f = (.err .sqliteError, ⟨f.tables, f.faults.tail⟩) ∧ f.faults ≠ []) ∨
      Sql.query text params f = (.ok rows, ⟨tables, f.faults.tail⟩) := by
  obtain ⟨ts, faults⟩ := f
  match faults with
  | [] =>
    refine .inr ?_
    change (match Sql.prepare text with | .none => _ | some s => _) = _
    rw [hp]
    change (match Sql.execute s params ts with | some (rows, tables) => _ | .none => _) = _
    rw [he]
    rfl
  | true :: fs => exact .inl ⟨rfl, by simp⟩
  | false :: fs =>
    refine .inr ?_
    change (match Sql.prepare text with | .none => _ | some s => _) = _
    rw [hp]
    change (match Sql.execute s params ts with | some (rows, tables) => _ | .none => _) = _
    rw [he]
    rfl

/-- Starting, from the effects of the two statements. -/
theorem createTables_cases {f : Sql.File} {t1 t2 : List (Str × Sql.Table)}
    (h1 : ∃ s, Sql.prepare createRelations = some s ∧ Sql.execute s [] f.tables = some ([], t1))
    (h2 : ∃ s, Sql.prepare createRoots = some s ∧ Sql.execute s [] t1 = some ([], t2)) :
    (createTables f = (.panic, ⟨f.tables, f.faults.tail⟩) ∧ f.faults ≠ []) ∨
    (createTables f = (.panic, ⟨t1, f.faults.tail.tail⟩) ∧ f.faults ≠ []) ∨
    createTables f = (.ok (), ⟨t2, f.faults.tail.tail⟩) := by
  obtain ⟨s1, p1, e1⟩ := h1
  obtain ⟨s2, p2, e2⟩ := h2
  unfold createTables
  rcases query_cases p1 e1 with ⟨hq, hne⟩ | hq
  · exact .inl ⟨by rw [hq], hne⟩
  · refine .inr ?_
    rw [hq]
    dsimp only
    rcases query_cases (f := ⟨t1, f.faults.tail⟩) p2 e2 with ⟨hq2, hne⟩ | hq2
    · refine .inl ⟨by rw [hq2], ?_⟩
      intro h0
      rw [h0] at hne
      exact hne rfl
    · exact .inr (by rw [hq2])

/-- The file after the first statement of the first start. -/
def relationsOnly : List (Str × Sql.Table) := [("trust_relations".toList, relationsTable [])]

theorem create_relations_new : ∃ s, Sql.prepare createRelations = some s ∧ Sql.execute s [] [] = some ([], relationsOnly) := by
  refine ⟨_, prepare_createRelations, ?_⟩
  simp only [Sql.execute]
  have h : [("relation_type".toList, "INTEGER".toList), ("issued_for".toList, "TEXT".toList), ("issued_by".toList, "TEXT".toList),
      ("issued_at".toList, "INTEGER".toList), ("expires_at".toList, "INTEGER".toList), ("signature".toList, "TEXT".toList)].map
      (fun c => (c.1, Sql.Affinity.ofType c.2)) = relationColumns := by decide +kernel
  exact congrArg (fun cols => some ([], [("trust_relations".toList, (⟨cols, _, []⟩ : Sql.Table))])) h

theorem create_relations_again (t : Sql.Table) (rest : List (Str × Sql.Table)) : ∃ s, Sql.prepare createRelations = some s ∧
    Sql.execute s [] (("trust_relations".toList, t) :: rest) = some ([], ("trust_relations".toList, t) :: rest) := by
  refine ⟨_, prepare_createRelations, ?_⟩
  simp only [Sql.execute]
  rw [List.lookup_cons, beq_self_eq_true]

theorem create_roots_new : ∃ s, Sql.prepare createRoots = some s ∧
    Sql.execute s [] relationsOnly = some ([], (file ⟨[], [], []⟩).tables) := by
  refine ⟨_, prepare_createRoots, ?_⟩
  simp only [Sql.execute]
  rw [show relationsOnly.lookup "roots".toList = none by decide +kernel]
  have h : [("public_key".toList, "TEXT".toList), ("weight_factor".toList, "INTEGER".toList)].map
      (fun c => (c.1, Sql.Affinity.ofType c.2)) = rootColumns := by decide +kernel
  exact congrArg (fun cols => some ([], relationsOnly ++ [("roots".toList, (⟨cols, [], []⟩ : Sql.Table))])) h

theorem create_roots_again (db : Db) : ∃ s, Sql.prepare createRoots = some s ∧
    Sql.execute s [] (file db).tables = some ([], (file db).tables) := by
  refine ⟨_, prepare_createRoots, ?_⟩
  simp only [Sql.execute]
  rw [lookup_roots]

/-- The file of a run. -/
theorem SqlRun.file {faulty : Prop} {up : Bool} {tr : List (Op × Outcome TrustGraphError Answer)} {f : Sql.File}
    (h : SqlRun faulty up tr f) : (f.faults ≠ [] → faulty) ∧
      ((∃ db, f = SqlStorage.file db ∧ Keyed db ∧ Trace faulty tr db) ∨
        (up = false ∧ tr = [] ∧ (f.tables = [] ∨ f.tables = relationsOnly))) := by
  induction h with
  | new => exact ⟨fun h => absurd rfl h, .inr ⟨rfl, rfl, .inl rfl⟩⟩
  | @start up tr f _ ih =>
    obtain ⟨hf, ih⟩ := ih
    have htail : ∀ l : List Bool, (l.tail ≠ [] → l ≠ []) := by intro l h h0; rw [h0] at h; exact h rfl
    rcases ih with ⟨db, rfl, hk, ht⟩ | ⟨_, rfl, hT⟩
    · have hc := createTables_cases (f := SqlStorage.file db)
        (create_relations_again (relationsTable db.relations) [("roots".toList, rootsTable db.roots)]) (create_roots_again db)
      have hw : ∀ faults, (faults ≠ [] → (SqlStorage.file db).faults ≠ []) → ((SqlStorage.file db).faults = [] → faults = []) →
          Trace faulty tr { db with faults } := by
        intro faults h1 h2
        by_cases h0 : (SqlStorage.file db).faults = []
        · rw [h2 h0, ← show db.faults = [] from h0]; exact ht
        · exact .weather _ (hf h0) ht
      have t1 : (SqlStorage.file db).faults = [] → (SqlStorage.file db).faults.tail = [] := by intro h; rw [h]; rfl
      have t2 : (SqlStorage.file db).faults = [] → (SqlStorage.file db).faults.tail.tail = [] := by intro h; rw [h]; rfl
      rcases hc with ⟨hc, _⟩ | ⟨hc, _⟩ | hc
      · rw [hc]
        exact ⟨fun h => hf (htail _ h), .inl ⟨{ db with faults := db.faults.tail }, rfl, hk, hw _ (htail _) t1⟩⟩
      · rw [hc]
        exact ⟨fun h => hf (htail _ (htail _ h)), .inl ⟨{ db with faults := db.faults.tail.tail }, rfl, hk,
          hw _ (fun h => htail _ (htail _ h)) t2⟩⟩
      · rw [hc]
        exact ⟨fun h => hf (htail _ (htail _ h)), .inl ⟨{ db with faults := db.faults.tail.tail }, rfl, hk,
          hw _ (fun h => htail _ (htail _ h)) t2⟩⟩
    · have hc : (createTables f = (.panic, ⟨f.tables, f.faults.tail⟩) ∧ f.faults ≠ []) ∨
          (createTables f = (.panic, ⟨relationsOnly, f.faults.tail.tail⟩) ∧ f.faults ≠ []) ∨
          createTables f = (.ok (), ⟨(SqlStorage.file ⟨[], [], []⟩).tables, f.faults.tail.tail⟩) := by
        apply createTables_cases _ create_roots_new
        rcases hT with hT | hT
        · rw [hT]; exact create_relations_new
        · rw [hT]; exact create_relations_again _ _
      rcases hc with ⟨hc, _⟩ | ⟨hc, _⟩ | hc
      · rw [hc]
        exact ⟨fun h => hf (htail _ h), .inr ⟨rfl, rfl, hT⟩⟩
      · rw [hc]
        exact ⟨fun h => hf (htail _ (htail _ h)), .inr ⟨rfl, rfl, .inr rfl⟩⟩
      · rw [hc]
        refine ⟨fun h => hf (htail _ (htail _ h)), .inl ⟨⟨[], [], f.faults.tail.tail⟩, rfl, List.nodup_nil, ?_⟩⟩
        by_cases h0 : f.faults.tail.tail = []
        · rw [h0]; exact .start
        · exact Trace.weather (db := ⟨[], [], []⟩) _ (hf (htail _ (htail _ h0))) .start
  | @call tr f op _ ih =>
    obtain ⟨hf, ih⟩ := ih
    rcases ih with ⟨db, rfl, hk, ht⟩ | ⟨h, _⟩
    · obtain ⟨hs, hk'⟩ := op.callIn_sim db hk
      rw [hs]
      refine ⟨fun h => ?_, .inl ⟨(op.call db).2, rfl, hk', ht.step op⟩⟩
      refine hf (fun h0 => h ?_)
      exact op.call_failStop.noFaults h0
    · cases h
  | @weather up tr f faults hw _ ih =>
    obtain ⟨_, ih⟩ := ih
    refine ⟨fun _ => hw, ?_⟩
    rcases ih with ⟨db, rfl, hk, ht⟩ | h
    · exact .inl ⟨{ db with faults }, rfl, hk, ht.weather _ hw⟩
    · exact .inr h

/-- **C101.**  Whatever calls are made, and however often the service is started, on a new database file, the texts of the SQL statements, executed one by one,
give exactly the answers and tables of the model of the storage on which the other theorems rest. -/
theorem C101_sql {faulty : Prop} {tr : List (Op × Outcome TrustGraphError Answer)} {f : Sql.File} (h : SqlRun faulty true tr f) :
    ∃ db, f = file db ∧ Trace faulty tr db := by
  rcases h.file.2 with ⟨db, e, _, ht⟩ | ⟨h, _⟩
  · exact ⟨db, e, ht⟩
  · cases h

/-- **C101.**  Such a run is one of the reference machine of C99. -/
theorem C101_machine {faulty : Prop} {tr : List (Op × Outcome TrustGraphError Answer)} {f : Sql.File} (h : SqlRun faulty true tr f)
    (hn : (tr.flatMap (fun p => p.1.offers)).length + 16 < 2 ^ 32) : ∃ w, Spec.World.Run faulty tr w := by
  obtain ⟨db, _, ht⟩ := C101_sql h
  exact ⟨_, C99_refines ht hn⟩

/-- **C101.**  Starting the service again keeps the tables as they are, even if the start fails. -/
theorem C101_restart {faulty : Prop} {up : Bool} {tr : List (Op × Outcome TrustGraphError Answer)} {f : Sql.File} (h : SqlRun faulty up tr f)
    (hup : up = true ∨ tr ≠ []) : (createTables f).2.tables = f.tables := by
  rcases h.file.2 with ⟨db, rfl, hk, ht⟩ | ⟨h1, h2, _⟩
  · have hc := createTables_cases (f := SqlStorage.file db)
      (create_relations_again (relationsTable db.relations) [("roots".toList, rootsTable db.roots)]) (create_roots_again db)
    rcases hc with ⟨hc, _⟩ | ⟨hc, _⟩ | hc <;> exact congrArg (fun r => r.2.tables) hc
  · rcases hup with h | h
    · rw [h1] at h; cases h
    · exact absurd h2 h

/-- **C101.**  Starting the service succeeds when no statement fails, also after starts that failed half way. -/
theorem C101_starts {faulty : Prop} {up : Bool} {tr : List (Op × Outcome TrustGraphError Answer)} {f : Sql.File} (h : SqlRun faulty up tr f)
    (hf : f.faults = []) : (createTables f).1 = .ok () := by
  have hc : ∃ t1 t2, (∃ s, Sql.prepare createRelations = some s ∧ Sql.execute s [] f.tables = some ([], t1)) ∧
      ∃ s, Sql.prepare createRoots = some s ∧ Sql.execute s [] t1 = some ([], t2) := by
    rcases h.file.2 with ⟨db, rfl, _, _⟩ | ⟨_, _, hT | hT⟩
    · exact ⟨_, _, create_relations_again (relationsTable db.relations) [("roots".toList, rootsTable db.roots)], create_roots_again db⟩
    · rw [hT]; exact ⟨_, _, create_relations_new, create_roots_new⟩
    · rw [hT]; exact ⟨_, _, create_relations_again _ _, create_roots_new⟩
  obtain ⟨t1, t2, h1, h2⟩ := hc
  rcases createTables_cases h1 h2 with ⟨_, h⟩ | ⟨_, h⟩ | h
  · exact absurd hf h
  · exact absurd hf h
  · rw [h]

end TG
