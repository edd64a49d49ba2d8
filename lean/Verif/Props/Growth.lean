/-
Property C138: how the database grows.
-/
import Verif.Props.Provenance
import Verif.Props.Relations
import Verif.Props.Machine
import Verif.Props.AquaFlow
import Verif.Props.History

namespace TG
variable [Env]

/-- **C138**: there are no more rows of relations than ordered pairs of keys for which a relation with a valid signature has been handed over. -/
theorem C138_one_row_per_pair {ops : List Op} {db : Db} (h : History ops db) :
    ∃ pairs : List (PublicKey × PublicKey), pairs.Nodup ∧ pairs.length = db.relations.length ∧
      ∀ p ∈ pairs, ∃ op ∈ ops, ∃ q ∈ op.offers, q.SignatureValid ∧ q.issuedBy = p.1 ∧ q.issuedFor = p.2 := by
  have hh := h.reachable.healthy
  have hp := (C72_provenance h).1
  have key : ∀ rows : List RelRow, (∀ row ∈ rows, row ∈ db.relations) →
      rows.Pairwise (fun r r' => ¬ (r.issuedFor = r'.issuedFor ∧ r.issuedBy = r'.issuedBy)) →
      ∃ pairs : List (PublicKey × PublicKey), pairs.Nodup ∧ pairs.length = rows.length ∧
        (∀ p ∈ pairs, ∃ row ∈ rows, row.issuedBy = keyText p.1 ∧ row.issuedFor = keyText p.2) ∧
        ∀ p ∈ pairs, ∃ op ∈ ops, ∃ q ∈ op.offers, q.SignatureValid ∧ q.issuedBy = p.1 ∧ q.issuedFor = p.2 := by
    intro rows
    induction rows with
    | nil => exact fun _ _ => ⟨[], List.nodup_nil, rfl, by simp, by simp⟩
    | cons row rows ih =>
      intro hin hpw
      obtain ⟨hnew, hpw⟩ := List.pairwise_cons.mp hpw
      obtain ⟨pairs, h1, h2, h3, h4⟩ := ih (fun x hx => hin x (List.mem_cons_of_mem _ hx)) hpw
      obtain ⟨r, hw, e⟩ := hh.rows row (hin row (by simp))
      have hst : db.Stored r := ⟨hw, by rw [← e]; exact hin row (by simp)⟩
      obtain ⟨op, ho, q, hq, hv, hqr⟩ := hp r hst
      have hby : row.issuedBy = keyText r.issuedBy := by rw [e]; rfl
      have hfor : row.issuedFor = keyText r.issuedFor := by rw [e]; rfl
      refine ⟨(r.issuedBy, r.issuedFor) :: pairs, List.nodup_cons.mpr ⟨fun hm => ?_, h1⟩, by rw [List.length_cons, h2, List.length_cons], ?_, ?_⟩
      · obtain ⟨row', hr', e1, e2⟩ := h3 _ hm
        exact hnew row' hr' ⟨hfor.trans e2.symm, hby.trans e1.symm⟩
      · intro p hp'
        rcases List.mem_cons.mp hp' with rfl | hp'
        · exact ⟨row, by simp, hby, hfor⟩
        · obtain ⟨row', hr', e'⟩ := h3 p hp'
          exact ⟨row', List.mem_cons_of_mem _ hr', e'⟩
      · intro p hp'
        rcases List.mem_cons.mp hp' with rfl | hp'
        · refine ⟨op, ho, q, hq, hv, ?_⟩
          rw [hqr]
          cases q <;> exact ⟨rfl, rfl⟩
        · exact h4 p hp'
  obtain ⟨pairs, h1, h2, -, h4⟩ := key db.relations (fun _ h => h) hh.unique
  exact ⟨pairs, h1, h2, h4⟩

/-- So `n` keys that know each other fill at most `n²` rows, however often they change their minds. -/
theorem C138_square {ops : List Op} {db : Db} (h : History ops db) (keys : List PublicKey)
    (hk : ∀ op ∈ ops, ∀ q ∈ op.offers, q.SignatureValid → q.issuedBy ∈ keys ∧ q.issuedFor ∈ keys) : db.relations.length ≤ keys.length * keys.length := by
  obtain ⟨pairs, h1, h2, h3⟩ := C138_one_row_per_pair h
  rw [← h2]
  have hl : (keys.flatMap fun a => keys.map fun b => (a, b)).length = keys.length * keys.length := by
    simp [List.length_flatMap]
  rw [← hl]
  refine (h1.subperm fun p hp => ?_).length_le
  obtain ⟨op, ho, q, hq, hv, e1, e2⟩ := h3 p hp
  obtain ⟨p1, p2⟩ := p
  have := hk op ho q hq hv
  rw [e1, e2] at this
  exact List.mem_flatMap.mpr ⟨p1, this.1, List.mem_map.mpr ⟨p2, this.2, rfl⟩⟩

/-- **C138**: one call adds at most one row for each relation with a valid signature that is handed over with it; so queries add nothing, nor do forged relations.
A root is added by `set_root` only. -/
theorem C138_one_call {db : Db} (hr : Reachable db) (op : Op) :
    (∃ valid : List TrustRelation, valid.Sublist op.offers ∧ (∀ q ∈ valid, q.SignatureValid) ∧
      (op.run db).relations.length ≤ db.relations.length + valid.length) ∧
    ((∀ q ∈ op.offers, ¬ q.SignatureValid) → (op.run db).relations.Sublist db.relations) ∧
    ((∀ k n, op ≠ .setRoot k n) → (op.run db).roots = db.roots) := by
  classical
  refine ⟨⟨op.offers.filter (fun q => decide q.SignatureValid), List.filter_sublist, fun q hq => of_decide_eq_true (List.mem_filter.mp hq).2, ?_⟩,
    fun hv => ?_, fun h => C34_only_set_root op h db⟩
  · have hstep := op.run_steps
      (R := fun a b : Db => ∀ row ∈ b.relations, (∃ row' ∈ a.relations, row'.issuedFor = row.issuedFor ∧ row'.issuedBy = row.issuedBy) ∨
        ∃ q ∈ op.offers, q.SignatureValid ∧ keyText q.issuedFor = row.issuedFor ∧ keyText q.issuedBy = row.issuedBy)
      ⟨fun _ row h => .inl ⟨row, h, rfl, rfl⟩, fun a b c h1 h2 row h => by
          rcases h2 row h with ⟨row', h', e1, e2⟩ | h'
          · rcases h1 row' h' with ⟨row'', h'', e3, e4⟩ | ⟨q, hq, hv, e3, e4⟩
            · exact .inl ⟨row'', h'', e3.trans e1, e4.trans e2⟩
            · exact .inr ⟨q, hq, hv, e3.trans e1, e4.trans e2⟩
          · exact .inr h',
        fun _ _ row h => .inl ⟨row, h, rfl, rfl⟩⟩
      (fun now _ db row h => .inl ⟨row, (List.mem_filter.mp h).1, rfl, rfl⟩)
      (fun q hq hv _ db _ row h => by
        rcases List.mem_append.mp h with h | h
        · exact .inl ⟨row, (List.mem_filter.mp h).1, rfl, rfl⟩
        · rw [List.mem_singleton.mp h]
          exact .inr ⟨q, hq, hv, rfl, rfl⟩)
      (fun _ _ _ _ row h => .inl ⟨row, h, rfl, rfl⟩) db
    have hu := (Reachable.step op hr).healthy.unique
    have hnd : ((op.run db).relations.map (fun r => (r.issuedFor, r.issuedBy))).Nodup := by
      refine List.pairwise_map.mpr (hu.imp fun {r r'} h e => h ?_)
      exact ⟨congrArg Prod.fst e, congrArg Prod.snd e⟩
    have hsub := (hnd.subperm (l₂ := db.relations.map (fun r => (r.issuedFor, r.issuedBy)) ++
      (op.offers.filter (fun q => decide q.SignatureValid)).map (fun q => (keyText q.issuedFor, keyText q.issuedBy))) fun p hp => by
        obtain ⟨row, hrow, rfl⟩ := List.mem_map.mp hp
        rcases hstep row hrow with ⟨row', h', e1, e2⟩ | ⟨q, hq, hv, e1, e2⟩
        · exact List.mem_append_left _ (List.mem_map.mpr ⟨row', h', by rw [e1, e2]⟩)
        · exact List.mem_append_right _ (List.mem_map.mpr ⟨q, List.mem_filter.mpr ⟨hq, decide_eq_true hv⟩, by rw [e1, e2]⟩)).length_le
    simpa only [List.length_append, List.length_map] using hsub
  · exact op.run_steps (R := fun a b : Db => b.relations.Sublist a.relations)
      ⟨fun _ => List.Sublist.refl _, fun _ _ _ h1 h2 => h2.trans h1, fun _ _ => List.Sublist.refl _⟩
      (fun now _ db => List.filter_sublist) (fun q hq hs => absurd hs (hv q hq)) (fun _ _ _ _ => List.Sublist.refl _) db

/-- `set_root` fails and changes nothing, or adds a row. -/
theorem setRoot_row (db : Db) (k : PublicKey) (n : Nat) :
    (∃ e, (TrustGraph.setRoot k n db).1 = .err e ∧ (TrustGraph.setRoot k n db).2.roots = db.roots) ∨
    ((TrustGraph.setRoot k n db).1 = .ok () ∧ (TrustGraph.setRoot k n db).2.roots = db.roots ++ [⟨keyText k, (getWeightFactor n : Nat)⟩]) := by
  have h : ∀ o, Sqlite.setRootWeightFactor k (getWeightFactor n) db = o →
      TrustGraph.setRoot k n db = (o.1.mapErr (fun _ => .internalStorageError), o.2) := by
    rintro o rfl
    rfl
  obtain ⟨rel, roots, faults⟩ := db
  rcases faults with _ | ⟨_ | _, fs⟩
  · rw [h _ rfl]; exact .inr ⟨rfl, rfl⟩
  · rw [h _ rfl]; exact .inr ⟨rfl, rfl⟩
  · rw [h _ rfl]; exact .inl ⟨_, rfl, rfl⟩

/-- Calls of `set_root` that were successful. -/
def Spec.rootsSet (tr : List (Op × Outcome TrustGraphError Answer)) : List (Op × Outcome TrustGraphError Answer) :=
  tr.filter fun p => match p with
    | (.setRoot _ _, .ok _) => true
    | _ => false

/-- **C138**: the table of roots has exactly one row for each successful call of `set_root`, also for those that repeat an earlier one (F3). -/
theorem C138_roots {faulty : Prop} {tr : List (Op × Outcome TrustGraphError Answer)} {db : Db} (h : Trace faulty tr db) :
    db.roots.length = (Spec.rootsSet tr).length := by
  induction h with
  | start => rfl
  | weather fs _ _ ih => exact ih
  | @step tr db op _ ih =>
    unfold Spec.rootsSet at ih ⊢
    rw [List.filter_append, List.length_append, ← ih]
    by_cases hs : ∃ k n, op = .setRoot k n
    · obtain ⟨k, n, rfl⟩ := hs
      rcases setRoot_row db k n with ⟨e, h1, h2⟩ | ⟨h1, h2⟩
      · have hc : (Op.setRoot k n).call db = (.err e, (TrustGraph.setRoot k n db).2) := M.bind_run_err (Prod.ext h1 rfl)
        rw [hc, h2]; rfl
      · have hc : (Op.setRoot k n).call db = (.ok .unit, (TrustGraph.setRoot k n db).2) := M.bind_run_ok (Prod.ext h1 rfl)
        rw [hc, h2, List.length_append]; rfl
    · have hr : (op.call db).2.roots = db.roots := by
        have := C34_only_set_root op (fun k n e => hs ⟨k, n, e⟩) db
        rwa [← op.call_state db] at this
      rw [hr]
      cases op <;> first | rfl | exact absurd ⟨_, _, rfl⟩ hs

end TG
