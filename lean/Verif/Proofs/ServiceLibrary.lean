/-
Every run of the service is a sequence of library calls (lemmas for C125-C127).
-/
import Verif.Spec.ServiceLibrary
import Verif.Proofs.ServiceRun

namespace TG
variable [Env]
open Spec SqlStorage

namespace Spec.Acts

theorem split {db db' : Db} {tr : List Event} (h : Acts db tr db') : ∀ pre post, tr = pre ++ post → ∃ m, Acts db pre m ∧ Acts m post db' := by
  have last : ∀ {tr pre post : List Event} {e : Event}, tr ++ [e] = pre ++ post → (post = [] ∧ pre = tr ++ [e]) ∨ ∃ p, post = p ++ [e] ∧ tr = pre ++ p := by
    intro tr pre post e h
    rcases List.eq_nil_or_concat post with rfl | ⟨p, x, rfl⟩
    · exact .inl ⟨rfl, by rw [h, List.append_nil]⟩
    · rw [List.concat_eq_append, ← List.append_assoc] at h
      obtain ⟨h1, h2⟩ := List.append_inj' h rfl
      cases h2
      exact .inr ⟨p, by rw [List.concat_eq_append], h1⟩
  induction h with
  | refl =>
    intro pre post e
    obtain ⟨rfl, rfl⟩ := List.append_eq_nil_iff.mp e.symm
    exact ⟨db, .refl, .refl⟩
  | weather faults _ ih =>
    intro pre post e
    obtain ⟨m, h1, h2⟩ := ih pre post e
    exact ⟨m, h1, h2.weather faults⟩
  | start b h ih =>
    intro pre post e
    rcases last e with ⟨rfl, rfl⟩ | ⟨p, rfl, e'⟩
    · exact ⟨_, h.start b, .refl⟩
    · obtain ⟨m, h1, h2⟩ := ih pre p e'
      exact ⟨m, h1, h2.start b⟩
  | idle hi h ih =>
    intro pre post e
    rcases last e with ⟨rfl, rfl⟩ | ⟨p, rfl, e'⟩
    · exact ⟨_, h.idle hi, .refl⟩
    · obtain ⟨m, h1, h2⟩ := ih pre p e'
      exact ⟨m, h1, h2.idle hi⟩
  | serve ha hm h ih =>
    intro pre post e
    rcases last e with ⟨rfl, rfl⟩ | ⟨p, rfl, e'⟩
    · exact ⟨_, h.serve ha hm, .refl⟩
    · obtain ⟨m, h1, h2⟩ := ih pre p e'
      exact ⟨m, h1, h2.serve ha hm⟩

theorem later {db db' : Db} {tr : List Event} (h : Acts db tr db') : Later (Made tr) db db' := by
  have up : ∀ {tr : List Event} {e : Event} {db' : Db}, Later (Made tr) db db' → Later (Made (tr ++ [e])) db db' := fun h =>
    h.mono fun op ⟨cp, c, o, hm, h⟩ => ⟨cp, c, o, List.mem_append_left _ hm, h⟩
  induction h with
  | refl => exact .refl
  | weather faults _ ih => exact ih.weather faults
  | start b _ ih => exact up ih
  | idle _ _ ih => exact up ih
  | @serve _ db' _ _ op ha hm _ ih =>
    rw [Op.call_state]
    exact (up ih).step op ⟨_, _, _, List.mem_append_right _ (.head _), ha, hm⟩

theorem reachable {db db' : Db} {tr : List Event} (h : Acts db tr db') (hr : Reachable db) : Reachable db' := h.later.reachable hr

theorem length {db db' : Db} {tr : List Event} (h : Acts db tr db') (hr : Reachable db) (hn : db.relations.length + offeredIn tr + 16 < 2 ^ 32) :
    db'.relations.length ≤ db.relations.length + offeredIn tr := by
  have hcall : ∀ {tr : List Event} {cp c o}, offeredIn (tr ++ [.call cp c o]) = offeredIn tr + c.offered := by intros; simp [offeredIn]
  have hstart : ∀ {tr : List Event} {b}, offeredIn (tr ++ [.start b]) = offeredIn tr := by intros; simp [offeredIn]
  induction h with
  | refl => exact Nat.le_add_right _ _
  | weather _ _ ih => exact ih hn
  | start b _ ih => rw [hstart] at hn ⊢; exact ih hn
  | idle _ _ ih => rw [hcall] at hn ⊢; have := ih (by omega); omega
  | @serve _ _ _ _ op _ hm h ih =>
    rw [hcall] at hn ⊢
    have h1 := ih (by omega)
    have h2 := hm.offers
    have h3 := (Op.refines (h.reachable hr) op (by omega)).1
    omega

/-- What a record tells. -/
theorem single {db db' : Db} {cp : CallParams} {c : Call} {r : Res Payload} (h : Acts db [.call cp c (.ok r)] db') :
    (∃ p, Computes c p ∧ r = ⟨true, none, p⟩) ∨ (r.success = false ∧ r.payload = c.neutral) ∨
    ∃ op faults faults' a d, Allowed cp c ∧ Means cp c op ∧ op.call { db with faults } = (.ok a, d) ∧ r = ⟨true, none, c.present a⟩ ∧
      db' = { d with faults := faults' } := by
  generalize ht : [Event.call cp c (.ok r)] = tr at h
  have hempty : ∀ {tr : List Event} {d}, Acts db tr d → tr = [] → ∃ faults, d = { db with faults } := by
    intro tr d h
    induction h with
    | refl => exact fun _ => ⟨db.faults, rfl⟩
    | weather fs _ ih =>
      intro e
      obtain ⟨_, rfl⟩ := ih e
      exact ⟨fs, rfl⟩
    | _ => intro e; simp at e
  induction h with
  | refl => cases ht
  | weather fs _ ih =>
    rcases ih ht with h | h | ⟨op, faults, faults', a, d, h0, h1, h2, h3, rfl⟩
    · exact .inl h
    · exact .inr (.inl h)
    · exact .inr (.inr ⟨op, faults, fs, a, d, h0, h1, h2, h3, rfl⟩)
  | start b _ _ =>
    have := (List.append_inj' (s₁ := []) ht rfl).2
    cases this
  | idle hi _ _ =>
    have := (List.append_inj' (s₁ := []) ht rfl).2
    cases this
    exact (hi r rfl).imp_right .inl
  | @serve tr m cp' c' op ha hm h _ =>
    obtain ⟨h0, h1⟩ := List.append_inj' (s₁ := []) ht rfl
    simp only [List.cons.injEq, Event.call.injEq, and_true] at h1
    obtain ⟨rfl, rfl, h1⟩ := h1
    obtain ⟨faults, rfl⟩ := hempty h h0.symm
    rcases hc : op.call { db with faults } with ⟨o, d⟩
    rw [hc] at h1
    rcases o with a | e | _ | _
    · cases h1
      exact .inr (.inr ⟨op, faults, d.faults, a, d, ha, hm, hc, rfl, rfl⟩)
    · cases h1
      exact .inr (.inl ⟨rfl, rfl⟩)
    · cases h1
    · cases h1

end Spec.Acts

/-- What is shown of every run. -/
def Works (tr : List Event) (i : Option Instance) (f : Sql.File) : Prop :=
  (∀ x ∈ i, x.file = f) ∧ ∃ db, Acts ⟨[], [], []⟩ tr db ∧
    ((f = file db ∧ Keyed db) ∨ (i = none ∧ (f.tables = [] ∨ f.tables = relationsOnly) ∧ db.relations = [] ∧ db.roots = []))

theorem Works.start {tr : List Event} {i : Option Instance} {f : Sql.File} (h : Works tr i f) :
    Works (tr ++ [.start (startModule f).1.isSome]) (startModule f).1 (startModule f).2 := by
  obtain ⟨-, db, hs, h⟩ := h
  unfold Works startModule
  rcases h with ⟨rfl, hk⟩ | ⟨rfl, hT, he⟩
  · rcases createTables_cases (f := file db) (create_relations_again (relationsTable db.relations) [("roots".toList, rootsTable db.roots)])
      (create_roots_again db) with ⟨hc, -⟩ | ⟨hc, -⟩ | hc
    · rw [hc]
      exact ⟨by simp, { db with faults := db.faults.tail }, (hs.weather _).start _, .inl ⟨rfl, hk⟩⟩
    · rw [hc]
      exact ⟨by simp, { db with faults := db.faults.tail.tail }, (hs.weather _).start _, .inl ⟨rfl, hk⟩⟩
    · rw [hc]
      exact ⟨by simp, { db with faults := db.faults.tail.tail }, (hs.weather _).start _, .inl ⟨rfl, hk⟩⟩
  · have hc : (createTables f = (.panic, ⟨f.tables, f.faults.tail⟩) ∧ f.faults ≠ []) ∨
        (createTables f = (.panic, ⟨relationsOnly, f.faults.tail.tail⟩) ∧ f.faults ≠ []) ∨
        createTables f = (.ok (), ⟨(file ⟨[], [], []⟩).tables, f.faults.tail.tail⟩) := by
      apply createTables_cases _ create_roots_new
      rcases hT with hT | hT
      · rw [hT]; exact create_relations_new
      · rw [hT]; exact create_relations_again _ _
    rcases hc with ⟨hc, -⟩ | ⟨hc, -⟩ | hc
    · rw [hc]; exact ⟨by simp, db, hs.start _, .inr ⟨rfl, hT, he⟩⟩
    · rw [hc]; exact ⟨by simp, db, hs.start _, .inr ⟨rfl, .inr rfl, he⟩⟩
    · rw [hc]
      obtain ⟨rel, roots, fs⟩ := db
      obtain ⟨rfl, rfl⟩ := he
      exact ⟨by simp, _, (hs.weather f.faults.tail.tail).start _, .inl ⟨rfl, List.nodup_nil⟩⟩

theorem Works.call {tr : List Event} {i : Instance} {f : Sql.File} (cp : CallParams) (c : Call) (h : Works tr (some i) f) :
    Works (tr ++ [.call cp c (c.exported cp i).1]) (some (c.exported cp i).2) (c.exported cp i).2.file := by
  obtain ⟨hif, db, hs, h⟩ := h
  rcases h with ⟨rfl, hk⟩ | ⟨h, -⟩
  swap
  · cases h
  have hif : i.file = file db := hif i rfl
  rcases i with ⟨b, f⟩
  cases (show f = file db from hif)
  unfold Works
  simp only [Option.mem_some_iff, forall_eq', true_and]
  have aside : ¬ NeedsGraph cp c → ∀ op, ¬ (Allowed cp c ∧ Means cp c op) := by
    rintro hg op ⟨ha, hm⟩
    cases hm with
    | setRoot => exact hg (ha.1 _ _ rfl)
    | _ => exact hg trivial
  have idle : ∀ {r : Res Payload}, Serve db.world cp c r db.world → ¬ NeedsGraph cp c → ∀ r', Outcome.ok (ε := Empty) r = .ok r' →
      (∃ p, Computes c p ∧ r' = ⟨true, none, p⟩) ∨ (r'.success = false ∧ r'.payload = c.neutral) := by
    rintro r hsv hg _ ⟨⟩
    cases hsv with
    | answer ha hm' => exact absurd ⟨ha, hm'⟩ (aside hg _)
    | decline => exact .inr ⟨rfl, rfl⟩
    | compute _ hp => exact .inl ⟨_, hp, rfl⟩
    | refuse => exact .inr ⟨rfl, rfl⟩
  cases b with
  | true =>
    by_cases hg : NeedsGraph cp c
    · rw [Call.exported_needs hg]
      exact ⟨db, hs.idle (fun r h => by cases h), .inl ⟨rfl, hk⟩⟩
    · rw [Call.exported_aside hg]
      obtain ⟨r, hr', he⟩ := Call.reply_aside hg db.world
      simp only [wrappedTry, he]
      exact ⟨db, hs.idle (idle hr' hg), .inl ⟨rfl, hk⟩⟩
  | false =>
    obtain ⟨e1, e2, -⟩ := Call.exported_free cp c (file db)
    rw [e1, e2]
    rcases Call.fate (S := Sql.File) cp c with ⟨op, ha, hm, h⟩ | ⟨p, ha, hp, h⟩ | ⟨e, ho, h⟩ | ⟨text, t, rfl, ht, h⟩
    · obtain ⟨hsim, hk'⟩ := op.callIn_sim db hk
      rw [h, hsim]
      have hsv := hs.serve ha hm
      rcases hc : op.call db with ⟨o, d⟩
      rw [hc] at hsv hk'
      exact ⟨d, by rcases o with a | e | _ | _ <;> exact hsv, .inl ⟨by rcases o with a | e | _ | _ <;> rfl, hk'⟩⟩
    · rw [h]
      exact ⟨db, hs.idle (fun r h => by cases h; exact .inl ⟨_, hp, rfl⟩), .inl ⟨rfl, hk⟩⟩
    · rw [h]
      exact ⟨db, hs.idle (fun r h => by cases h; exact .inr ⟨rfl, rfl⟩), .inl ⟨rfl, hk⟩⟩
    · rw [h]
      exact ⟨db, hs.idle (fun r h => by cases h), .inl ⟨rfl, hk⟩⟩

theorem ServiceRun.works {faulty : Prop} {tr : List Event} {i : Option Instance} {f : Sql.File} (h : ServiceRun faulty tr i f) : Works tr i f := by
  induction h with
  | new => exact ⟨by simp, _, .refl, .inr ⟨rfl, .inl rfl, rfl, rfl⟩⟩
  | start _ ih => exact ih.start
  | call cp c _ ih => exact ih.call cp c
  | @weather tr i f faults hw _ ih =>
    obtain ⟨hi, db, hs, ih⟩ := ih
    refine ⟨?_, { db with faults }, hs.weather faults, ?_⟩
    · intro x hx
      rw [Option.mem_def, Option.map_eq_some_iff] at hx
      obtain ⟨y, hy, rfl⟩ := hx
      rw [hi y hy]
    · rcases ih with ⟨rfl, hk⟩ | ⟨rfl, h⟩
      · exact .inl ⟨rfl, hk⟩
      · exact .inr ⟨rfl, h⟩

end TG
