/-
C128: a damaged row in the database harms nothing but itself.
-/
import Verif.Proofs.Damage
import Verif.Props.Sql

namespace TG
open Sql Spec SqlStorage
variable [Env]

namespace Damage
variable {G : PublicKey → PublicKey → Prop} {f : File} {w : World} {faulty : Prop}

theorem restart_cases (h : Survives G f w) :
    ∃ fs, (fs ≠ [] → f.faults ≠ []) ∧ (createTables f).2 = ⟨f.tables, fs⟩ := by
  have h1 : ∃ s, Sql.prepare createRelations = some s ∧ Sql.execute s [] f.tables = some ([], f.tables) := by
    rw [h.tables]
    exact create_relations_again _ _
  have h2 : ∃ s, Sql.prepare createRoots = some s ∧ Sql.execute s [] f.tables = some ([], f.tables) := by
    refine ⟨_, prepare_createRoots, ?_⟩
    rw [h.tables]
    simp only [Sql.execute]
    rw [lookup_root]
  have ht : f.faults.tail ≠ [] → f.faults ≠ [] := by
    intro h e
    rw [e] at h
    exact h rfl
  have htt : f.faults.tail.tail ≠ [] → f.faults ≠ [] := by
    intro h e
    rw [e] at h
    exact h rfl
  rcases createTables_cases h1 h2 with ⟨e, -⟩ | ⟨e, -⟩ | e
  · exact ⟨_, ht, by rw [e]⟩
  · exact ⟨_, htt, by rw [e]⟩
  · exact ⟨_, htt, by rw [e]⟩

theorem fit (h : Survives G f w) : w.Fit (relRows f).length where
  keyed a b r hr := by
    obtain ⟨-, -, h1, h2⟩ := (h.relation a b r).mp hr
    exact ⟨h1, h2⟩
  roots k m hm := by
    rw [h.roots] at hm
    obtain ⟨row, -, e⟩ := List.exists_of_findSome?_eq_some hm
    split at e
    · split at e
      · cases e
        omega
      · cases e
    · cases e
  finite := by
    refine ⟨(relRows f).filterMap parsed, List.length_filterMap_le _ _, fun a b r hr => ?_⟩
    obtain ⟨hw, hm, -⟩ := (h.relation a b r).mp hr
    exact List.mem_filterMap.mpr ⟨_, hm, (parsed_iff (h.good _ hm)).mpr ⟨hw, rfl⟩⟩

end Damage

open Damage in
/-- **C128.**  A file some of whose rows are garbled: the library works on it as the reference machine works on what is left.  Only the calls that offer a trust or a
revocation for a pair of keys that a garbled row is about may fail. -/
theorem C128_damaged_partial {G : PublicKey → PublicKey → Prop} {f g : File} {w : World} {faulty : Prop} {tr : List (Op × Outcome TrustGraphError Answer)}
    (h : Survives G f w) (hf : f.faults ≠ [] → faulty) (hr : From faulty f tr g)
    (hn : (relRows f).length + (tr.flatMap (fun p => p.1.offers)).length + 16 < 2 ^ 32) :
    ∃ w', Survives G g w' ∧ w.Goes (fun op => faulty ∨ ∃ q ∈ op.offers, G q.issuedBy q.issuedFor) tr w' := by
  suffices hs : (look G faulty).Ok g ∧ (worldOf g).Fit ((relRows f).length + (tr.flatMap (fun p => p.1.offers)).length) ∧
      w.Goes (fun op => faulty ∨ ∃ q ∈ op.offers, G q.issuedBy q.issuedFor) tr (worldOf g) from ⟨_, hs.1.1, hs.2.2⟩
  induction hr with
  | refl =>
    rw [h.world]
    exact ⟨⟨by rw [h.world]; exact h, hf⟩, (fit h).mono (by simp), .refl⟩
  | @step tr g op _ ih =>
    rw [List.flatMap_append, List.length_append] at hn ⊢
    have e : (List.flatMap (fun p : Op × Outcome TrustGraphError Answer => p.1.offers) [(op, (op.callIn g).1)]) = op.offers := by
      simp
    rw [e] at hn ⊢
    obtain ⟨h1, h2, h3⟩ := ih (by omega)
    have hw : faulty → faulty ∨ ∃ q ∈ op.offers, G q.issuedBy q.issuedFor := .inl
    obtain ⟨w', i1, i2, i3⟩ := (contract G hw).refines h2 op (by omega) (fun _ _ _ => takesRoots hw)
      (fun q hq => takes hw fun hG => .inr ⟨q, hq, hG⟩) ⟨h1, rfl⟩
    obtain ⟨i2, e2⟩ := i2
    change worldOf _ = w' at e2
    subst e2
    rw [Nat.add_assoc] at i1
    refine ⟨i2, i1, ?_⟩
    rcases i3 with i3 | ⟨hf, ho, i3⟩
    · exact .step h3 i3
    · rw [ho]; exact .fault hf h3 i3
  | restart _ ih =>
    obtain ⟨h1, h2, h3⟩ := ih hn
    obtain ⟨fs, hfs, e⟩ := restart_cases h1.1
    rw [e]
    exact ⟨(same_weather h1 hfs).ok, h2, h3⟩
  | weather faults hfa _ ih =>
    obtain ⟨h1, h2, h3⟩ := ih hn
    exact ⟨⟨h1.1.weather faults, fun _ => hfa⟩, h2, h3⟩

namespace Damage

omit [Env] in
theorem rootRows_of {f : File} {rows roots : List (List Value)} (h : f.tables = tabs rows roots) : Spec.rootRows f = roots := by
  unfold Spec.rootRows
  rw [h, lookup_root]
  rfl

/-- What a file written by the service holds. -/
theorem of_healthy {db : Db} (h : db.Healthy) : Survives (fun _ _ => False) (SqlStorage.file db) db.world := by
  have hrel : relRows (SqlStorage.file db) = db.relations.map ofRelRow := rfl
  have hroot : Spec.rootRows (SqlStorage.file db) = db.roots.map ofRootRow := rootRows_of (rows := db.relations.map ofRelRow) rfl
  refine ⟨?_, ?_, ?_, ?_, ?_, ?_, ?_⟩
  · rw [hrel, hroot]
    rfl
  · rw [hrel]
    intro row hr
    obtain ⟨x, hx, rfl⟩ := List.mem_map.mp hr
    obtain ⟨r, hw, rfl⟩ := h.rows x hx
    exact .inl ⟨r, hw, rfl⟩
  · rw [hrel, List.pairwise_map]
    refine h.unique.imp ?_
    rintro r r' hne a b ⟨h1, h2, h3, h4⟩
    simp only [ofRelRow, List.getElem?_cons_succ, List.getElem?_cons_zero, Option.some.injEq, Value.string.injEq] at h1 h2 h3 h4
    exact hne ⟨h1.trans h2.symm, h3.trans h4.symm⟩
  · rw [hrel]
    intro row hr hg
    obtain ⟨x, hx, rfl⟩ := List.mem_map.mp hr
    obtain ⟨r, hw, rfl⟩ := h.rows x hx
    obtain ⟨e, he⟩ := parse_garbled hg
    have := parse_written hw
    unfold rowOf at this
    rw [this] at he
    cases he
  · rw [hroot]
    intro row hr
    obtain ⟨x, hx, rfl⟩ := List.mem_map.mp hr
    obtain ⟨k, n, hn, rfl⟩ := h.roots x hx
    exact ⟨k, n, hn, rfl⟩
  · intro a b r
    rw [h.world_relation, hrel]
    unfold Db.Stored rowOf
    have : ofRelRow (Sqlite.toRow r) ∈ db.relations.map ofRelRow ↔ Sqlite.toRow r ∈ db.relations := by
      rw [List.mem_map]
      refine ⟨fun ⟨x, hx, e⟩ => ?_, fun hx => ⟨_, hx, rfl⟩⟩
      have : asRelRow (ofRelRow x) = asRelRow (ofRelRow (Sqlite.toRow r)) := by rw [e]
      rw [asRelRow_ofRelRow, asRelRow_ofRelRow] at this
      cases this
      exact hx
    rw [this]
    tauto
  · intro k
    rw [hroot]
    refine Eq.trans ?_ (first_root db.roots k).symm
    show Option.map _ (db.rootFactor k) = _
    unfold Db.rootFactor rootsFor
    rw [List.head?_filter, Option.map_map]
    rfl

end Damage

open Damage in
/-- **C128.**  After any calls, restarts and failing statements some rows of the table of trusts and revocations are damaged.  What is left: the same roots, and the
trusts and revocations whose rows are intact. -/
theorem C128_left {faulty : Prop} {tr : List (Op × Outcome TrustGraphError Answer)} {f f' : File}
    (h : SqlRun faulty true tr f) (hd : DamagedFrom f f') (hn : (tr.flatMap (fun p => p.1.offers)).length + 16 < 2 ^ 32) :
    ∃ w v : World, World.Run faulty tr w ∧ Survives (GarbledPair f') f' v ∧ v.roots = w.roots ∧
      ∀ a b r, v.relation a b = some r ↔ w.relation a b = some r ∧ rowOf r ∈ relRows f' := by
  obtain ⟨hf, ⟨db, rfl, -, ht⟩ | ⟨hu, -⟩⟩ := h.file
  · have hw := of_healthy ht.reachable.healthy
    have hroots : Spec.rootRows f' = Spec.rootRows (SqlStorage.file db) := rootRows_of hd.tables
    have hs : Survives (GarbledPair f') f' (worldOf f') := by
      refine ⟨?_, ?_, hd.keyed, ?_, ?_, ?_, ?_⟩
      · rw [hroots]
        exact hd.tables
      · intro row hr
        rcases hd.rows row hr with hr | hr
        · exact hw.rows row hr
        · exact .inr hr
      · exact fun row hr hg a b h1 h2 => ⟨row, hr, hg, h1, h2⟩
      · rw [hroots]
        exact hw.rootRows
      · exact worldOf_relation hd.keyed
      · exact fun k => rfl
    refine ⟨db.world, worldOf f', C99_refines ht hn, hs, ?_, fun a b r => ?_⟩
    · funext k
      rw [hs.roots, hw.roots, hroots]
    · rw [hs.relation, hw.relation]
      constructor
      · rintro ⟨h1, h2, h3⟩
        refine ⟨⟨h1, ?_, h3⟩, h2⟩
        rcases hd.rows _ h2 with h | h
        · exact h
        · obtain ⟨e, he⟩ := parse_garbled h
          rw [parse_written h1] at he
          cases he
      · rintro ⟨⟨h1, -, h3⟩, h2⟩
        exact ⟨h1, h2, h3⟩
  · cases hu

/-- **C128.**  After any calls, restarts and failing statements some rows of the table of trusts and revocations are damaged.  Then the library goes on as the reference
machine does with what is left: the same roots, and the trusts and revocations whose rows are intact. -/
theorem C128_after_run_partial {faulty : Prop} {tr tr' : List (Op × Outcome TrustGraphError Answer)} {f f' g : File}
    (h : SqlRun faulty true tr f) (hd : DamagedFrom f f') (hr : From faulty f' tr' g)
    (hn : (tr.flatMap (fun p => p.1.offers)).length + 16 < 2 ^ 32)
    (hn' : (relRows f').length + (tr'.flatMap (fun p => p.1.offers)).length + 16 < 2 ^ 32) :
    ∃ w v v' : World, World.Run faulty tr w ∧ v.roots = w.roots ∧ (∀ a b r, v.relation a b = some r ↔ w.relation a b = some r ∧ rowOf r ∈ relRows f') ∧
      v.Goes (fun op => faulty ∨ ∃ q ∈ op.offers, GarbledPair f' q.issuedBy q.issuedFor) tr' v' := by
  obtain ⟨w, v, h1, h2, h3, h4⟩ := C128_left h hd hn
  obtain ⟨v', -, hv⟩ := C128_damaged_partial h2 (fun hne => h.file.1 (by rw [← hd.faults]; exact hne)) hr hn'
  exact ⟨w, v, v', h1, h3, h4, hv⟩

/-! ### What a damaged row does harm -/

open Damage in
/-- **C128.**  A garbled row that is about two keys cannot be replaced: the first key cannot revoke the second.  (Nor can it trust it, until the row expires.) -/
theorem C128_blocked_fails {G : PublicKey → PublicKey → Prop} {f : File} {w : World} (h : Survives G f w) {r : Revocation}
    (hg : GarbledPair f r.revokedBy r.pk) (hv : r.verify = .ok ()) (hf : f.faults = []) :
    (Op.revoke r).callIn f = (.err .internalStorageError, f) := by
  obtain ⟨row, hm, hg, h1, h2⟩ := hg
  have hpair : row ∈ forPair (relRows f) (keyText r.revokedBy) (keyText r.pk) := by
    unfold forPair
    rw [(order_perm _ _ _ _).mem_iff, List.mem_filter, all_by_for, decide_eq_true_eq]
    exact ⟨hm, h1, h2⟩
  have hall : ∀ row' ∈ forPair (relRows f) (keyText r.revokedBy) (keyText r.pk), Garbled row' := by
    intro row' hr'
    obtain ⟨hm', h1', h2'⟩ := forPair_sub hr'
    by_contra hne
    have hrr : row ≠ row' := fun e => hne (e ▸ hg)
    exact pairwise_forall (fun x y h a b e => h a b ⟨e.2.1, e.1, e.2.2.2, e.2.2.1⟩) h.keyed hm hm' hrr _ _ ⟨h1, h1', h2, h2'⟩
  obtain ⟨fs, hfs, hq⟩ := Damage.query_cases prepare_selectRelation (h.exec (exec_forPair (Spec.rootRows f) h.six (keyText r.revokedBy) (keyText r.pk)))
  have hfs : fs = [] := by
    by_contra hne
    exact hfs hne hf
  subst hfs
  rcases hq with hq | ⟨hne, -⟩
  · have hrel : ∃ e, SqlStorage.updateRelation (.revocation r) f = (.err e, f) := by
      have ht : (⟨tabs (relRows f) (Spec.rootRows f), []⟩ : File) = f := by
        rw [← hf]
        exact congrArg (fun t => (⟨t, f.faults⟩ : File)) h.tables.symm
      rw [ht] at hq
      have hget : ∃ e, SqlStorage.getRelation r.pk r.revokedBy f = (.err e, f) := by
        unfold SqlStorage.getRelation
        rw [M.bind_run, hq]
        rcases hl : forPair (relRows f) (keyText r.revokedBy) (keyText r.pk) with _ | ⟨row', rows⟩
        · rw [hl] at hpair
          cases hpair
        · obtain ⟨e, he⟩ := parse_garbled (hall row' (by rw [hl]; simp))
          refine ⟨e, ?_⟩
          dsimp only
          rw [M.bind_run, M.lift_run, he]
      obtain ⟨e, he⟩ := hget
      refine ⟨e, ?_⟩
      unfold SqlStorage.updateRelation
      rw [M.bind_run, show SqlStorage.getRelation (TrustRelation.revocation r).issuedFor (TrustRelation.revocation r).issuedBy
        = SqlStorage.getRelation r.pk r.revokedBy from rfl, he]
    obtain ⟨e, he⟩ := hrel
    have hrev : TrustGraph.revoke r f = (.err .internalStorageError, f) := by
      unfold TrustGraph.revoke
      rw [hv, M.bind_run]
      change (M.mapErr _ (SqlStorage.updateRelation (.revocation r))) f = _
      unfold M.mapErr
      rw [he]
      rfl
    change (TrustGraph.revoke r >>= fun _ => pure Answer.unit) f = _
    rw [M.bind_run, hrev]
  · exact absurd hf hne

namespace Damage

theorem parseRoots_keys {rows : List (List Value)} {ks : List PublicKey} (h : parseRoots rows = .ok ks) :
    ∀ row ∈ rows, ∃ k : PublicKey, row[0]? = some (.string (keyText k)) := by
  induction rows generalizing ks with
  | nil => exact fun _ h => by cases h
  | cons row rows ih =>
    rw [parseRoots] at h
    intro r hr
    unfold asString at h
    rcases h0 : row[0]? with _ | v
    · rw [h0] at h
      cases h
    · rw [h0] at h
      cases v with
      | string s =>
        change ((PublicKey.fromBase58 s).mapErr _ >>= _) = _ at h
        rcases hk : PublicKey.fromBase58 s with k | e | _ | _
        · rw [hk] at h
          change (parseRoots rows >>= _) = _ at h
          rcases hp : parseRoots rows with ks' | e | _ | _
          · rcases List.mem_cons.mp hr with rfl | hr
            · exact ⟨k, by rw [h0, C44_text.mp hk]; rfl⟩
            · exact ih hp r hr
          all_goals rw [hp] at h; cases h
        all_goals rw [hk] at h; cases h
      | _ => cases h

set_option maxRecDepth 100000 in
omit [Env] in
theorem project_root_row {roots : List (List Value)} {row : List Value} (h : row.length = 2) : (rtbl roots).project rootNames row = row := by
  match row, h with
  | [a, b], _ =>
    change List.filterMap _ ["public_key".toList, "weight_factor".toList] = _
    have h0 : (rtbl roots).column "public_key".toList = some (0, .text) := column_key []
    have h1 : (rtbl roots).column "weight_factor".toList = some (1, .integer) := column_factor []
    simp only [List.filterMap_cons, h0, h1, Option.bind_some]
    rfl

/-- A row of the table of roots without a key. -/
structure BadRoots (rows roots : List (List Value)) (f : File) : Prop where
  tables : f.tables = tabs rows roots
  columns : ∀ row ∈ roots, row.length = 2
  bad : ∃ row ∈ roots, ∀ k : PublicKey, row[0]? ≠ some (.string (keyText k))

set_option maxRecDepth 100000 in
theorem rootKeys_bad {rows roots : List (List Value)} {f g : File} {ks : List PublicKey} (h : BadRoots rows roots f) : SqlStorage.rootKeys f ≠ (.ok ks, g) := by
  have he : execute (.select rootNames "roots".toList []) [] f.tables = some (roots, f.tables) := by
    rw [h.tables]
    simp only [execute, lookup_root]
    rw [if_pos ⟨has_root _ _ (by decide +kernel), rfl⟩]
    change some (List.map _ (List.filter (fun _ => true) roots), _) = _
    rw [List.filter_true]
    exact congrArg (fun l => some (l, _)) ((List.map_congr_left fun row hr => project_root_row (h.columns row hr)).trans (List.map_id _))
  obtain ⟨fs, -, hq⟩ := Damage.query_cases prepare_selectRoots he
  unfold SqlStorage.rootKeys
  rw [M.bind_run]
  rcases hq with hq | ⟨-, hq⟩
  · rw [hq]
    intro e
    change (parseRoots roots, _) = _ at e
    obtain ⟨row, hr, hb⟩ := h.bad
    obtain ⟨k, hk⟩ := parseRoots_keys (congrArg Prod.fst e) row hr
    exact hb k hk
  · rw [hq]
    intro e
    cases e

omit [Env] in
theorem bind_bad {α β : Type} {m : M File TrustGraphError α} {n : α → M File TrustGraphError β} {f : File}
    (h : ∀ a f', m f = (.ok a, f') → ∀ b g, n a f' ≠ (.ok b, g)) (b : β) (g : File) : (m >>= n) f ≠ (.ok b, g) := by
  rw [M.bind_run]
  rcases hx : m f with ⟨a | e | _ | _, g'⟩
  · exact h a g' hx b g
  all_goals
    intro e
    cases e

omit [Env] in
theorem storage_ok {α : Type} {x : M File SqlError α} {f g : File} {a : α} (h : TrustGraph.storage x f = (.ok a, g)) : x f = (.ok a, g) := by
  unfold TrustGraph.storage M.mapErr at h
  rcases hx : x f with ⟨a | e | _ | _, g'⟩ <;> rw [hx] at h <;> cases h
  rfl

theorem getAllCerts_bad {rows roots : List (List Value)} {f : File} (h : BadRoots rows roots f) (k : PublicKey) (now : Dur) (cs : List Certificate) (g : File) :
    TrustGraph.getAllCerts k now f ≠ (.ok cs, g) := by
  refine bind_bad (fun _ f' hf => ?_) cs g
  have hf : SqlStorage.removeExpired now f = _ := storage_ok hf
  obtain ⟨rows', he⟩ : ∃ rows', execute (.delete "trust_relations".toList [⟨"expires_at".toList, ['<', '=']⟩, ⟨"relation_type".toList, ['=']⟩])
      [.integer (asI64 now.secs), .integer authType] f.tables = some ([], tabs rows' roots) := by
    rw [h.tables]
    exact ⟨_, exec_delete rows roots (asI64 now.secs) authType⟩
  obtain ⟨fs, -, hq⟩ := Damage.query_cases prepare_deleteExpired he
  unfold SqlStorage.removeExpired at hf
  rw [M.bind_run] at hf
  rcases hq with hq | ⟨-, hq⟩
  · rw [hq] at hf
    cases hf
    exact bind_bad fun ks f'' hk => absurd (storage_ok hk) (rootKeys_bad (rows := rows') ⟨rfl, h.columns, h.bad⟩)
  · rw [hq] at hf
    cases hf

theorem select_keeps {text : Str} {cols : List Str} {name : Str} {cs : List Cond} (hp : prepare text = some (.select cols name cs)) (ps : List Value) (f : File) :
    (query text ps f).2.tables = f.tables := by
  have key : ∀ ts fs, (match execute (.select cols name cs) ps ts with
      | some (rows, tables) => ((.ok rows : Outcome SqlError (List (List Value))), (⟨tables, fs⟩ : File))
      | .none => (.err .sqliteError, ⟨ts, fs⟩)).2.tables = ts := by
    intro ts fs
    unfold execute
    dsimp only
    rcases ts.lookup name with _ | t
    · rfl
    · dsimp only
      split <;> rename_i h <;> split at h <;> cases h <;> rfl
  obtain ⟨ts, faults⟩ := f
  match faults with
  | [] =>
    change (match prepare text with | .none => ((_ : Outcome SqlError (List (List Value))), (_ : File)) | some s => _).2.tables = _
    rw [hp]
    exact key ts []
  | true :: fs => rfl
  | false :: fs =>
    change (match prepare text with | .none => ((_ : Outcome SqlError (List (List Value))), (_ : File)) | some s => _).2.tables = _
    rw [hp]
    exact key ts fs

theorem factor_keeps (k : PublicKey) (f : File) : (SqlStorage.getRootWeightFactor k f).2.tables = f.tables := by
  have h := select_keeps prepare_selectRoot [.string (keyText k)] f
  unfold SqlStorage.getRootWeightFactor
  rw [M.bind_run]
  rcases hq : query selectRoot [.string (keyText k)] f with ⟨rows | e | _ | _, g⟩
  · rw [hq] at h
    dsimp only
    rcases rows with _ | ⟨row, rows⟩
    · exact h
    · dsimp only
      rw [M.bind_run, M.lift_run]
      cases asInteger .weightFactorConversionDB row 1 with
      | ok n =>
        dsimp only
        split
        · exact h
        · exact h
      | _ => exact h
  all_goals
    rw [hq] at h
    exact h

end Damage

open Damage in
/-- **C128.**  A row without a readable key in the table of roots is the end of all answers about certificates and weights. -/
theorem C128_roots_fails {f : File} {rows roots : List (List Value)}
    (htables : f.tables = [("trust_relations".toList, ⟨SqlStorage.relationColumns, ["issued_for".toList, "issued_by".toList], rows⟩),
      ("roots".toList, ⟨SqlStorage.rootColumns, [], roots⟩)])
    (hcolumns : ∀ row ∈ roots, row.length = 2) (hbad : ∃ row ∈ roots, ∀ k : PublicKey, row[0]? ≠ some (.string (keyText k))) (k a : PublicKey) (now : Dur) (x : Answer) :
    ((Op.getAllCerts k now).callIn f).1 ≠ .ok x ∧ ((Op.getAllCertsFrom k a now).callIn f).1 ≠ .ok x ∧
      ((Op.weight k now).callIn f).1 ≠ .ok x ∧ ((Op.weightFrom k a now).callIn f).1 ≠ .ok x := by
  have h : BadRoots rows roots f := ⟨htables, hcolumns, hbad⟩
  have h1 : ∀ cs g, TrustGraph.getAllCerts k now f ≠ (.ok cs, g) := getAllCerts_bad h k now
  have h2 : ∀ cs g, TrustGraph.getAllCertsFrom k a now f ≠ (.ok cs, g) := bind_bad fun cs g hc => absurd hc (h1 cs g)
  have fin : ∀ {α : Type} {m : M File TrustGraphError α} {n : α → Answer} {f : File}, (∀ a g, m f ≠ (.ok a, g)) → ((m >>= fun a => pure (n a)) f).1 ≠ .ok x := by
    intro α m n f hm e
    exact bind_bad (n := fun a => pure (n a)) (fun a g ha => absurd ha (hm a g)) x _ (Prod.ext e rfl)
  refine ⟨fin h1, fin h2, fin ?_, fin (bind_bad fun cs g hc => absurd hc (h2 cs g))⟩
  refine bind_bad fun o f' hf => ?_
  have hk := factor_keeps k f
  have hf : SqlStorage.getRootWeightFactor k f = _ := storage_ok hf
  rw [hf] at hk
  exact bind_bad fun cs g hc => absurd hc (getAllCerts_bad (rows := rows) (roots := roots) ⟨hk.trans htables, hcolumns, hbad⟩ k now cs g)

open Damage in
/-- **C128.**  A row with an empty text instead of a key makes the service trap whenever it reads the row, here by a question for revocations. -/
theorem C128_empty_fails {f : File} {rows roots : List (List Value)}
    (htables : f.tables = [("trust_relations".toList, ⟨SqlStorage.relationColumns, ["issued_for".toList, "issued_by".toList], rows⟩),
      ("roots".toList, ⟨SqlStorage.rootColumns, [], roots⟩)])
    (hf : f.faults = []) {k : PublicKey} {i e s : Value} (hrow : [.integer 1, .string (keyText k), .string [], i, e, s] ∈ rows)
    (hrows : ∀ row ∈ rows, row = [.integer 1, .string (keyText k), .string [], i, e, s] ∨ (∃ r : TrustRelation, r.Whole ∧ row = rowOf r) ∨ Garbled row) :
    ((Op.getRevocations k).callIn f).1 = .panic := by
  have hpanic : parseRelation [.integer 1, .string (keyText k), .string [], i, e, s] = .panic := by
    unfold parseRelation asInteger asString
    simp only [List.getElem?_cons_succ, List.getElem?_cons_zero, Outcome.ok_bind, PublicKey.fromBase58_keyText]
    rfl
  have hsix : ∀ row ∈ rows, row.length = 6 := by
    intro row hr
    rcases hrows row hr with rfl | h
    · rfl
    · exact Good.length h
  have hparse : ∀ l : List (List Value), (∀ row ∈ l, row ∈ rows) → [.integer 1, .string (keyText k), .string [], i, e, s] ∈ l → parseRows l = .panic := by
    intro l
    induction l with
    | nil => exact fun _ h => by cases h
    | cons row l ih =>
      intro hl hm
      rw [parseRows]
      rcases hrows row (hl row (by simp)) with rfl | ⟨r, hw, rfl⟩ | hg
      · rw [hpanic]
      · rcases List.mem_cons.mp hm with hm | hm
        · rw [← hm, hpanic]
        · rw [parse_written hw, ih (fun row hr => hl row (List.mem_cons_of_mem _ hr)) hm]
          rfl
      · rcases List.mem_cons.mp hm with hm | hm
        · rw [← hm, hpanic]
        · obtain ⟨e, he⟩ := parse_garbled hg
          rw [he, ih (fun row hr => hl row (List.mem_cons_of_mem _ hr)) hm]
  have hin : [.integer 1, .string (keyText k), .string [], i, e, s] ∈ forType rows (keyText k) revocationType := by
    unfold forType
    rw [(order_perm _ _ _ _).mem_iff, List.mem_filter]
    refine ⟨hrow, ?_⟩
    refine (all_columns (t := tbl rows) (t' := relationsTable []) rfl _ _ _).trans ?_
    simp only [Table.all, Table.cond, column_for, column_type]
    simp [Affinity.apply, Value.eq, revocationType]
  obtain ⟨fs, -, hq⟩ := Damage.query_cases (f := f) prepare_selectRelations (by rw [htables]; exact exec_forType roots hsix (keyText k) revocationType)
  rcases hq with hq | ⟨hne, -⟩
  · have hget : SqlStorage.getRevocations k f = (.panic, ⟨tabs rows roots, fs⟩) := by
      unfold SqlStorage.getRevocations SqlStorage.getRelations
      rw [M.bind_run, M.bind_run, hq]
      dsimp only
      rw [M.lift_run, hparse _ (fun row hr => forType_sub hr) hin]
    change ((TrustGraph.storage (SqlStorage.getRevocations k) >>= fun rs => pure (Answer.revocations rs) : M File TrustGraphError Answer) f).1 = _
    rw [M.bind_run]
    unfold TrustGraph.storage M.mapErr
    rw [hget]
    rfl
  · exact absurd hf hne

end TG
