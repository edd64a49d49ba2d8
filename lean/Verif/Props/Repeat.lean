/-
Property C117: calls can be repeated.
-/
import Verif.Props.OwnWeight
import Verif.Props.Machine
import Verif.Props.Robust
import Verif.Props.Import

namespace TG
variable [Env]

/-- The call is made again and again, each time with another schedule of failing SQL statements.  Some of the attempts may have succeeded. -/
def Spec.attempts (op : Op) (schedules : List (List Bool)) (db : Db) : Db := schedules.foldl (fun d faults => op.run { d with faults }) db

theorem Spec.attempts_ind {op : Op} {J : Db → Prop} {db : Db} (h0 : J db) (hstep : ∀ d faults, J d → J (op.run { d with faults }))
    (schedules : List (List Bool)) : J (Spec.attempts op schedules db) := by
  unfold Spec.attempts
  induction schedules generalizing db with
  | nil => exact h0
  | cons fs rest ih => exact ih (hstep db fs h0)

theorem Spec.attempts_later (op : Op) (schedules : List (List Bool)) (db : Db) : Later (· = op) db (Spec.attempts op schedules db) :=
  Spec.attempts_ind .refl (fun _ fs h => .step op rfl (.weather fs h)) schedules

namespace Spec.World

theorem collect_collect (w : World) (now : Dur) : (w.collect now).collect now = w.collect now :=
  ext' (fun _ => rfl) fun a b r => by simp only [collect_relation]; tauto

theorem collect_at (w : World) (now : Dur) (a b : PublicKey) :
    (w.collect now).relation a b = w.relation a b ∨ (w.collect now).relation a b = none := by
  unfold collect
  dsimp only
  split
  · split
    · rename_i h _; exact .inl h.symm
    · exact .inr rfl
  · exact .inl rfl

theorem update_other (w : World) {r : TrustRelation} {a b : PublicKey} (h : ¬ (a = r.issuedBy ∧ b = r.issuedFor)) :
    (w.update r).relation a b = w.relation a b := by
  unfold update
  dsimp only
  rw [if_neg fun h' => h ⟨h'.1, h'.2.1⟩]

theorem update_pair (w : World) (r : TrustRelation) :
    (w.update r).relation r.issuedBy r.issuedFor = some r.trunc ∨
    (w.update r).relation r.issuedBy r.issuedFor = w.relation r.issuedBy r.issuedFor ∧
      ∃ q, w.relation r.issuedBy r.issuedFor = some q ∧ ¬ q.issuedAt.total < r.issuedAt.total := by
  unfold update
  dsimp only
  split
  · exact .inl rfl
  · rename_i h
    refine .inr ⟨rfl, ?_⟩
    by_contra hno
    exact h ⟨rfl, rfl, fun q hq => by_contra fun hlt => hno ⟨q, hq, hlt⟩⟩

theorem update_old (w : World) {r q : TrustRelation} (h : w.relation r.issuedBy r.issuedFor = some q) (hq : ¬ q.issuedAt.total < r.issuedAt.total) :
    (w.update r).relation r.issuedBy r.issuedFor = some q := by
  unfold update
  dsimp only
  rw [if_neg fun h' => hq (h'.2.2 q h), h]

theorem eq_of_relation {w w' : World} (h1 : w.roots = w'.roots) (h2 : ∀ a b, w.relation a b = w'.relation a b) : w = w' :=
  ext' (fun k => congrFun h1 k) fun a b r => by rw [h2]

/-- A relation that has been stored, and then perhaps collected, can be stored again: nothing else changes. -/
theorem update_again {w v : World} {r : TrustRelation} (hroots : v.roots = w.roots)
    (ho : ∀ a b, ¬ (a = r.issuedBy ∧ b = r.issuedFor) → v.relation a b = w.relation a b)
    (hp : v.relation r.issuedBy r.issuedFor = (w.update r).relation r.issuedBy r.issuedFor ∨
      v.relation r.issuedBy r.issuedFor = none ∧ (w.update r).relation r.issuedBy r.issuedFor = some r.trunc) :
    v.update r = w.update r := by
  refine eq_of_relation hroots fun a b => ?_
  by_cases h : a = r.issuedBy ∧ b = r.issuedFor
  · obtain ⟨rfl, rfl⟩ := h
    rcases update_pair v r with h1 | ⟨h1, q, h2, h3⟩
    · rw [h1]
      rcases hp with hp | ⟨-, hp⟩
      · rcases update_pair w r with h4 | ⟨h4, q, h5, h6⟩
        · exact h4.symm
        · rw [h4, h5] at hp
          rw [update_old v hp h6] at h1
          rw [h4, h5, h1]
      · exact hp.symm
    · rw [h1]
      rcases hp with hp | ⟨hp, -⟩
      · exact hp
      · rw [hp] at h2; cases h2
  · rw [update_other v h, update_other w h, ho a b h]

theorem update_update (w : World) (r : TrustRelation) : (w.update r).update r = w.update r :=
  update_again rfl (fun _ _ h => update_other w h) (.inl rfl)

theorem update_collect_update {w : World} {now : Dur} (hw : w.collect now = w) (r : TrustRelation) :
    ((w.update r).collect now).update r = w.update r := by
  have hother : ∀ a b, (w.update r).relation a b = w.relation a b → ((w.update r).collect now).relation a b = w.relation a b := by
    intro a b h
    conv_rhs => rw [← hw]
    unfold collect
    dsimp only
    rw [h]
  refine update_again rfl (fun a b h => hother a b (update_other w h)) ?_
  rcases update_pair w r with h | ⟨h, -⟩
  · rcases collect_at (w.update r) now r.issuedBy r.issuedFor with h1 | h1
    · exact .inl h1
    · exact .inr ⟨h1, h⟩
  · exact .inl ((hother _ _ h).trans h.symm)

theorem setRoot_setRoot (w : World) (k : PublicKey) (n : Nat) : (w.setRoot k n).setRoot k n = w.setRoot k n := by
  refine eq_of_relation (funext fun a => ?_) fun _ _ => rfl
  unfold setRoot
  dsimp only
  by_cases h : a = k ∧ w.roots a = none
  · obtain ⟨rfl, h⟩ := h
    simp [h]
  · simp only [h, if_false]

end Spec.World

theorem Db.same_roots_of_world {d d' : Db} (hh : d.Healthy) (hh' : d'.Healthy) (h : d.world.roots = d'.world.roots) (k : PublicKey) :
    d.rootFactor k = d'.rootFactor k := by
  have e : (d.rootFactor k).map (16 - ·) = (d'.rootFactor k).map (16 - ·) := congrArg (fun f => f k) h
  rcases h1 : d.rootFactor k with _ | f <;> rcases h2 : d'.rootFactor k with _ | f'
  · rfl
  · rw [h1, h2] at e; cases e
  · rw [h1, h2] at e; cases e
  · rw [h1, h2] at e
    have := hh.rootFactor_le h1
    have := hh'.rootFactor_le h2
    have : 16 - f = 16 - f' := Option.some.inj e
    congr 1
    omega

theorem Db.same_of_world {d d' : Db} (hh : d.Healthy) (hh' : d'.Healthy) (h : d.world = d'.world) :
    (∀ q, d.Stored q ↔ d'.Stored q) ∧ ∀ k, d.rootFactor k = d'.rootFactor k := by
  refine ⟨fun q => ?_, Db.same_roots_of_world hh hh' (congrArg (·.roots) h)⟩
  have h1 := hh.world_relation (a := q.issuedBy) (b := q.issuedFor) (r := q)
  have h2 := hh'.world_relation (a := q.issuedBy) (b := q.issuedFor) (r := q)
  rw [h] at h1
  exact ⟨fun hq => (h2.mp (h1.mpr ⟨hq, rfl, rfl⟩)).1, fun hq => (h1.mp (h2.mpr ⟨hq, rfl, rfl⟩)).1⟩

/-- What holds of the world before the attempts, and is kept by each of them. -/
theorem Spec.attempts_world {op : Op} {db : Db} {J : Spec.World → Prop} (hr : Reachable db) (h0 : J db.world)
    (hs : ∀ d, Reachable d → Later (· = op) db d → d.relations.length + op.offers.length + 16 < 2 ^ 32 → J d.world →
      d.world.Step op (op.call d).1 (op.run d).world ∨ (op.call d).1 = .err .internalStorageError ∧ d.world.Break op (op.run d).world →
      J (op.run d).world)
    (schedules : List (List Bool)) (hn : db.relations.length + (schedules.length + 1) * op.offers.length + 16 < 2 ^ 32) :
    (Spec.attempts op schedules db).relations.length + op.offers.length + 16 < 2 ^ 32 ∧ J (Spec.attempts op schedules db).world := by
  have key : ∀ (d : Db) (l : List (List Bool)), Reachable d → Later (· = op) db d → J d.world →
      d.relations.length + (l.length + 1) * op.offers.length + 16 < 2 ^ 32 →
      (Spec.attempts op l d).relations.length + op.offers.length + 16 < 2 ^ 32 ∧ J (Spec.attempts op l d).world := by
    intro d l
    induction l generalizing d with
    | nil =>
      intro _ _ hJ hb
      rw [List.length_nil, Nat.zero_add, Nat.one_mul] at hb
      exact ⟨hb, hJ⟩
    | cons fs l ih =>
      intro hrd hl hJ hb
      rw [List.length_cons, Nat.add_mul, Nat.one_mul] at hb
      have hb1 : d.relations.length + op.offers.length + 16 < 2 ^ 32 := by omega
      obtain ⟨hlen, hcase⟩ := Op.refines (hrd.weather fs) op hb1
      rw [Op.call_state] at hlen hcase
      refine ih (op.run { d with faults := fs }) ((hrd.weather fs).step op) (.step op rfl (.weather fs hl)) ?_ ?_
      · refine hs _ (hrd.weather fs) (.weather fs hl) hb1 hJ ?_
        rcases hcase with h | ⟨-, h⟩
        · exact .inl h
        · exact .inr h
      · dsimp only at hlen
        omega
  exact key db schedules hr .refl h0 hn

/-- The same answer, the same relations, the same roots. -/
def Spec.SameEffect (x y : Outcome TrustGraphError Answer × Db) : Prop :=
  x.1 = y.1 ∧ (∀ q, x.2.Stored q ↔ y.2.Stored q) ∧ ∀ k, x.2.rootFactor k = y.2.rootFactor k

theorem Spec.SameEffect.of_world {op : Op} {d d' : Db} (hr : Reachable d) (hr' : Reachable d') (ho : (op.call d).1 = (op.call d').1)
    (hw : (op.run d).world = (op.run d').world) : Spec.SameEffect (op.call d) (op.call d') := by
  refine ⟨ho, ?_⟩
  rw [Op.call_state, Op.call_state]
  exact Db.same_of_world (hr.step op).healthy (hr'.step op).healthy hw

/-- The machine's step when no SQL statement fails. -/
theorem Op.refines_calm {d : Db} (hr : Reachable d) (op : Op) (hn : d.relations.length + op.offers.length + 16 < 2 ^ 32) :
    d.world.Step op (op.call d.calm).1 (op.run d.calm).world := by
  rcases (Op.refines (hr.weather []) op hn).2 with h | ⟨h, -⟩
  · rw [Op.call_state] at h; exact h
  · exact absurd rfl h

/-- A call that changes nothing whatever happens. -/
theorem repeat_refused {op : Op} {o : Outcome TrustGraphError Answer} (h : ∀ d, op.call d = (o, d)) (schedules : List (List Bool)) (db : Db) :
    Spec.SameEffect (op.call (Spec.attempts op schedules db).calm) (op.call db.calm) := by
  have hc : (Spec.attempts op schedules db).calm = db.calm := by
    refine Spec.attempts_ind (J := fun d => d.calm = db.calm) rfl (fun d fs hd => ?_) schedules
    rw [← Op.call_state, h]
    exact hd
  rw [hc]
  exact ⟨rfl, fun _ => Iff.rfl, fun _ => rfl⟩

/-- Calls whose success means `F`, after a collection `N`. -/
theorem repeat_of {op : Op} {db : Db} (hr : Reachable db) (F N : Spec.World → Spec.World) (hN : ∀ u, N (N u) = N u)
    (hF : F (N (F (N db.world))) = F (N db.world)) (hadd : ∀ c now, op ≠ .add c now)
    (htime : ∀ now, op.time = some now → ∀ u, N u = u.collect now)
    (schedules : List (List Bool)) (hn : db.relations.length + (schedules.length + 1) * op.offers.length + 16 < 2 ^ 32)
    (hs : ∀ d, Reachable d → Later (· = op) db d → d.relations.length + op.offers.length + 16 < 2 ^ 32 →
      d.world.Step op (op.call d).1 (op.run d).world → (op.run d).world = F (N d.world) ∧ (d.NoFaults → (op.call d).1 = (op.call db.calm).1)) :
    Spec.SameEffect (op.call (Spec.attempts op schedules db).calm) (op.call db.calm) := by
  have final : ∀ u, N u = N db.world ∨ N u = N (F (N db.world)) → F (N u) = F (N db.world) := by
    rintro u (h | h)
    · rw [h]
    · rw [h, hF]
  obtain ⟨hb, hJ⟩ := Spec.attempts_world (op := op) (J := fun v => N v = N db.world ∨ N v = N (F (N db.world))) hr (.inl rfl) (by
    intro d hrd hl hbd hJ hc
    rcases hc with hc | ⟨-, hc⟩
    · rw [(hs d hrd hl hbd hc).1, final _ hJ]
      exact .inr rfl
    · have : N (op.run d).world = N d.world := by
        generalize (op.run d).world = v at hc ⊢
        cases hc with
        | nothing => rfl
        | collected _ _ h => rw [← htime _ h, hN]
        | add => exact absurd rfl (hadd _ _)
      rwa [this]) schedules hn
  have hla := Spec.attempts_later op schedules db
  have hra := hla.reachable hr
  have hb0 : db.relations.length + op.offers.length + 16 < 2 ^ 32 := by rw [Nat.add_mul] at hn; omega
  obtain ⟨e1, o1⟩ := hs _ (hra.weather []) (.weather [] hla) hb (Op.refines_calm hra op hb)
  obtain ⟨e2, -⟩ := hs _ (hr.weather []) (.weather [] .refl) hb0 (Op.refines_calm hr op hb0)
  exact Spec.SameEffect.of_world (hra.weather []) (hr.weather []) (o1 rfl) ((e1.trans (final _ hJ)).trans e2.symm)

theorem Later.from_calm {ok : Op → Prop} {db d : Db} (h : Later ok db d) : Later ok db.calm d := by
  induction h with
  | refl => exact .weather (db := db.calm) (db' := db.calm) db.faults .refl
  | step op hop _ ih => exact .step op hop ih
  | weather fs _ ih => exact .weather fs ih

/-- All calls but `add`. -/
theorem repeat_simple {op : Op} {db : Db} (hr : Reachable db) (hadd : ∀ c now, op ≠ .add c now) (schedules : List (List Bool))
    (hn : db.relations.length + (schedules.length + 1) * op.offers.length + 16 < 2 ^ 32) :
    Spec.SameEffect (op.call (Spec.attempts op schedules db).calm) (op.call db.calm) := by
  have query : ∀ (now : Dur) (_ : op.IsQuery) (_ : op.time = some now) (_ : ∀ {u o v}, Spec.World.Step u op o v → v = u.collect now),
      Spec.SameEffect (op.call (Spec.attempts op schedules db).calm) (op.call db.calm) := by
    intro now hq ht hstep
    refine repeat_of hr id (·.collect now) (Spec.World.collect_collect · now) (Spec.World.collect_collect _ now) hadd
      (fun t h u => by rw [ht] at h; cases h; rfl) schedules hn fun d hrd hl hbd h => ⟨hstep h, fun hf => ?_⟩
    have hl' : Later (fun o => o.IsQuery ∧ ∀ t, o.time = some t → asI64 t.secs ≤ asI64 now.secs) db.calm d :=
      hl.from_calm.mono fun o h => by
        subst h
        exact ⟨hq, fun t h => by rw [ht] at h; cases h; exact le_refl _⟩
    exact (C36_queries_do_not_disturb_partial hq (fun t h => by rw [ht] at h; cases h; rfl) hl').1 rfl hf
  cases op with
  | setRoot k n =>
    refine repeat_of hr (·.setRoot k n) id (fun _ => rfl) (Spec.World.setRoot_setRoot _ k n) hadd (fun t h => (nomatch h)) schedules hn
      fun d hrd hl hbd h => ?_
    have h0 := Op.refines_calm hr (.setRoot k n) (by rw [Nat.add_mul] at hn; omega)
    generalize (Op.run (.setRoot k n) d).world = v at h ⊢
    generalize (Op.call (.setRoot k n) d).1 = o at h ⊢
    generalize (Op.run (.setRoot k n) db.calm).world = v' at h0
    generalize (Op.call (.setRoot k n) db.calm).1 = o' at h0 ⊢
    cases h
    cases h0
    exact ⟨rfl, fun _ => rfl⟩
  | addTrust t a now =>
    rcases Trust.verify_cases t a now with hv | ⟨e, hv⟩
    · have h0 := Op.refines_calm hr (.addTrust t a now) (by rw [Nat.add_mul] at hn; omega)
      have hC : ∀ d, Later (· = Op.addTrust t a now) db d → d.relations.length + 1 + 16 < 2 ^ 32 → ∀ y y',
          (Op.call (.addTrust t a now) db.calm).1 = .ok (.weight y) → (Op.call (.addTrust t a now) d).1 = .ok (.weight y') → y' = y := by
        intro d hl hbd y y' h1 h2
        have hl' : Later (fun op => Spec.OnlyBy (· = a) op ∧ ∀ t, op.time = some t → asI64 t.secs ≤ asI64 now.secs) db.calm d :=
          hl.from_calm.mono fun op h => by
            subst h
            exact ⟨⟨fun q hq => by rw [List.mem_singleton.mp hq.1]; rfl, fun _ _ h => nomatch h⟩, fun _ h => by cases h; exact le_refl _⟩
        have get : ∀ (d : Db) (y : Nat), (Op.call (.addTrust t a now) d).1 = .ok (.weight y) → ∃ s, TrustGraph.addTrust t a now d = (.ok y, s) := by
          intro d y h
          have h : ((TrustGraph.addTrust t a now >>= fun w => pure (Answer.weight w) : M Db TrustGraphError Answer) d).1 = _ := h
          rw [M.bind_run] at h
          rcases he : TrustGraph.addTrust t a now d with ⟨_ | _ | _ | _, s⟩ <;> rw [he] at h <;> cases h
          exact ⟨s, rfl⟩
        obtain ⟨s1, g1⟩ := get _ _ h1
        obtain ⟨s2, g2⟩ := get _ _ h2
        exact ((C116_own_weight (hr.weather []) hl').2 (show db.relations.length + 16 < 2 ^ 32 by omega) (by omega)).2.2 t _ _ _ _ g1 g2
      have hy : ∃ y, (Op.call (.addTrust t a now) db.calm).1 = .ok (.weight y) := by
        generalize (Op.run (.addTrust t a now) db.calm).world = v at h0
        generalize (Op.call (.addTrust t a now) db.calm).1 = o at h0 ⊢
        cases h0 with
        | addTrust h => exact ⟨_, rfl⟩
        | refuseTrust h => rw [hv] at h; cases h
      obtain ⟨y, hy⟩ := hy
      refine repeat_of hr (fun u => if y = 0 then u else u.update (.auth ⟨t, a⟩)) (·.collect now) (Spec.World.collect_collect · now) ?_ hadd
        (fun t h u => by cases h; rfl) schedules hn fun d hrd hl hbd h => ?_
      · split
        · exact Spec.World.collect_collect _ now
        · exact Spec.World.update_collect_update (Spec.World.collect_collect _ now) _
      · have := hC d hl hbd y
        generalize (Op.run (.addTrust t a now) d).world = v at h ⊢
        generalize (Op.call (.addTrust t a now) d).1 = o at h this ⊢
        cases h with
        | addTrust h =>
          obtain ⟨-, x, -, -, hv'⟩ := h
          have e := this _ hy rfl
          subst e
          exact ⟨hv', fun _ => hy.symm⟩
        | refuseTrust h => rw [hv] at h; cases h
    · refine repeat_refused (o := .err (.trustVerificationError e)) (fun d => ?_) schedules db
      show (TrustGraph.addTrust t a now >>= fun w => pure (Answer.weight w) : M Db TrustGraphError Answer) d = _
      rw [M.bind_run]
      unfold TrustGraph.addTrust
      rw [hv]
      rfl
  | add c now => exact absurd rfl (hadd c now)
  | revoke r =>
    rcases Revocation.verify_cases r with hv | ⟨e, hv⟩
    · refine repeat_of hr (·.update (.revocation r)) id (fun _ => rfl) (Spec.World.update_update _ _) hadd (fun t h => (nomatch h)) schedules hn
        fun d hrd hl hbd h => ?_
      have h0 := Op.refines_calm hr (.revoke r) (by rw [Nat.add_mul] at hn; omega)
      generalize (Op.run (.revoke r) d).world = v at h ⊢
      generalize (Op.call (.revoke r) d).1 = o at h ⊢
      generalize (Op.run (.revoke r) db.calm).world = v' at h0
      generalize (Op.call (.revoke r) db.calm).1 = o' at h0 ⊢
      cases h with
      | revoke =>
        cases h0 with
        | revoke => exact ⟨rfl, fun _ => rfl⟩
        | refuseRevocation h => rw [hv] at h; cases h
      | refuseRevocation h => rw [hv] at h; cases h
    · refine repeat_refused (o := .err (.revokeCheckError e)) (fun d => ?_) schedules db
      show (TrustGraph.revoke r >>= fun _ => pure Answer.unit : M Db TrustGraphError Answer) d = _
      rw [M.bind_run]
      unfold TrustGraph.revoke
      rw [hv]
      rfl
  | weight k now => exact query now trivial rfl (fun h => by cases h; rfl)
  | weightFrom k a now => exact query now trivial rfl (fun h => by cases h; rfl)
  | getAllCerts k now => exact query now trivial rfl (fun h => by cases h; rfl)
  | getAllCertsFrom k a now => exact query now trivial rfl (fun h => by cases h; rfl)
  | getRevocations k =>
    refine repeat_of hr id id (fun _ => rfl) rfl hadd (fun t h => (nomatch h)) schedules hn fun d hrd hl hbd h => ⟨?_, fun hf => ?_⟩
    · generalize (Op.run (.getRevocations k) d).world = v at h ⊢
      generalize (Op.call (.getRevocations k) d).1 = o at h
      cases h
      rfl
    · have hl' : Later (fun o => o.IsQuery ∧ ∀ t, o.time = some t → asI64 t.secs ≤ asI64 (Dur.ofSecs 0).secs) db.calm d :=
        hl.from_calm.mono fun o h => by
          subst h
          exact ⟨trivial, fun t h => (nomatch h)⟩
      exact (C36_queries_do_not_disturb_partial (q := .getRevocations k) trivial (fun t h => (nomatch h)) hl').1 rfl hf

namespace Spec.World

/-- What attempts to add the trusts `E` at `now` may have made of a world. -/
structure Attempted (E : PublicKey → Trust → Prop) (now : Dur) (w v : World) : Prop where
  roots : v.roots = w.roots
  new : ∀ a b r, v.relation a b = some r → w.relation a b = some r ∨ ∃ t, E a t ∧ t.issuedFor = b ∧ r = .auth ⟨t, a⟩
  keep : ∀ a b r, w.relation a b = some r → (∀ x, r = .auth x → Spec.Live x.trust now) → (∀ t, E a t → t.issuedFor ≠ b) → v.relation a b = some r

namespace Attempted
variable {E : PublicKey → Trust → Prop} {now : Dur} {w v : World}

theorem refl : Attempted E now w w := ⟨rfl, fun _ _ _ h => .inl h, fun _ _ _ h _ _ => h⟩

theorem collect (h : Attempted E now w v) : Attempted E now w (v.collect now) :=
  ⟨h.roots, fun a b r hr => h.new a b r (collect_relation.mp hr).1, fun a b r hr hl hE => collect_relation.mpr ⟨h.keep a b r hr hl hE, hl⟩⟩

theorem update (h : Attempted E now w v) {a : PublicKey} {t : Trust} (hE : E a t) (ht : t.WholeSeconds) :
    Attempted E now w (v.update (.auth ⟨t, a⟩)) := by
  have htr : (TrustRelation.auth ⟨t, a⟩).trunc = .auth ⟨t, a⟩ := TrustRelation.Whole.trunc_eq ⟨ht.2, ht.1⟩
  refine ⟨h.roots, fun a' b' r hr => ?_, fun a' b' r hr hl hno => ?_⟩
  · by_cases hp : a' = (TrustRelation.auth ⟨t, a⟩).issuedBy ∧ b' = (TrustRelation.auth ⟨t, a⟩).issuedFor
    · obtain ⟨e1, e2⟩ := hp
      rw [e1, e2] at hr ⊢
      rcases update_pair v (.auth ⟨t, a⟩) with h1 | ⟨h1, -⟩
      · rw [h1, htr] at hr
        cases hr
        exact .inr ⟨t, hE, rfl, rfl⟩
      · rw [h1] at hr
        exact h.new _ _ r hr
    · rw [update_other v hp] at hr
      exact h.new _ _ r hr
  · rw [update_other v ?_]
    · exact h.keep _ _ r hr hl hno
    · rintro ⟨rfl, rfl⟩
      exact hno t hE rfl

theorem addTrust (h : Attempted E now w v) {a : PublicKey} {t : Trust} (hE : E a t) (ht : t.WholeSeconds) {y : Nat} {v' : World}
    (hs : v.AddTrust a t now y v') : Attempted E now w v' := by
  obtain ⟨-, x, -, -, rfl⟩ := hs
  split
  · exact h.collect
  · exact h.collect.update hE ht

theorem addChain (hw : ∀ k t, E k t → t.WholeSeconds) {a : PublicKey} {ts : List Trust} {o : Outcome TrustGraphError Answer} {v v' : World}
    (hs : AddChain now v a ts o v') (h : Attempted E now w v) (hE : ∀ p ∈ (a :: ts.map (·.issuedFor)).zip ts, E p.1 p.2) :
    Attempted E now w v' := by
  induction hs with
  | done => exact h
  | refused _ => exact h
  | next h1 _ ih =>
    have := hE (_, _) (List.mem_cons_self ..)
    exact ih (h.addTrust this (hw _ _ this) h1) fun p hp => hE p (List.mem_cons_of_mem _ hp)

theorem breakChain (hw : ∀ k t, E k t → t.WholeSeconds) {a : PublicKey} {ts : List Trust} {v v' : World}
    (hs : BreakChain now v a ts v') (h : Attempted E now w v) (hE : ∀ p ∈ (a :: ts.map (·.issuedFor)).zip ts, E p.1 p.2) :
    Attempted E now w v' := by
  induction hs with
  | here h1 =>
    rcases h1 with rfl | rfl
    · exact h
    · exact h.collect
  | later h1 _ ih =>
    have := hE (_, _) (List.mem_cons_self ..)
    exact ih (h.addTrust this (hw _ _ this) h1) fun p hp => hE p (List.mem_cons_of_mem _ hp)

end Attempted
end Spec.World

theorem Spec.Edge.of_zip {t : Trust} {ts : List Trust} {p : PublicKey × Trust}
    (h : p ∈ (t.issuedFor :: (t :: ts).map (·.issuedFor)).zip (t :: ts)) : Spec.Edge (t :: ts) p.1 p.2 := by
  rw [← Spec.issuers_zip] at h
  obtain ⟨i, hi⟩ := List.mem_iff_getElem?.mp h
  rw [List.getElem?_zip_eq_some] at hi
  exact ⟨i, hi⟩

/-- Attempts to add a certificate leave it importable. -/
theorem Spec.Importable.attempted {db d : Db} {c : Certificate} {now : Dur} (hh : db.Healthy) (hh' : d.Healthy) (hc : Spec.Importable db c now)
    (h : Spec.World.Attempted (Spec.Edge c.chain) now db.world d.world) : Spec.Importable d c now := by
  have hnew : ∀ q, d.Stored q → db.Stored q ∨ ∃ k t, Spec.Edge c.chain k t ∧ q = .auth ⟨t, k⟩ := by
    intro q hq
    rcases h.new _ _ q (hh'.world_relation.mpr ⟨hq, rfl, rfl⟩) with h1 | ⟨t, h1, -, h2⟩
    · exact .inl (hh.world_relation.mp h1).1
    · exact .inr ⟨_, t, h1, h2⟩
  refine ⟨hc.long, ?_, hc.valid, hc.live, hc.whole, hc.noRevisit, ?_, ?_⟩
  · intro t ht
    obtain ⟨f, hf, hl⟩ := hc.root t ht
    exact ⟨f, ((Db.same_roots_of_world hh' hh h.roots) _).trans hf, hl⟩
  · rintro i j a b hij ha hb ⟨r, hr, h1, h2⟩
    rcases hnew _ hr with h3 | ⟨_, _, -, h3⟩
    · exact hc.unrevoked i j a b hij ha hb ⟨r, h3, h1, h2⟩
    · cases h3
  · intro k t he r hr hp
    rcases hnew _ hr with h3 | ⟨k', t', he', rfl⟩
    · exact hc.fresh k t he r h3 hp
    · obtain ⟨i, hi, hti⟩ := he
      obtain ⟨j, hj, htj⟩ := he'
      have hp' : k' = k ∧ t'.issuedFor = t.issuedFor := ⟨hp.2, hp.1⟩
      have := Spec.edge_index_unique hc.noRevisit hi hti hj htj hp'.1.symm hp'.2.symm
      subst this
      rw [hi] at hj
      rw [hti] at htj
      cases hj
      cases htj
      exact .inl rfl

/-- `add` of a certificate that can be imported. -/
theorem repeat_import {c : Certificate} {now : Dur} {db : Db} (hr : Reachable db) (hc : Spec.Importable db c now) (schedules : List (List Bool))
    (hn : db.relations.length + (schedules.length + 1) * (Op.add c now).offers.length + 16 < 2 ^ 32) :
    Spec.SameEffect (Op.call (.add c now) (Spec.attempts (.add c now) schedules db).calm) (Op.call (.add c now) db.calm) := by
  have hlen : (Op.add c now).offers.length = c.chain.length := by simp [Op.offers, Spec.issuers_length]
  have hwhole : ∀ k t, Spec.Edge c.chain k t → t.WholeSeconds := fun k t ⟨i, _, hi⟩ => hc.whole t (List.mem_of_getElem? hi)
  obtain ⟨hb, hJ⟩ := Spec.attempts_world (op := .add c now) (J := Spec.World.Attempted (Spec.Edge c.chain) now db.world) hr .refl (by
    intro d hrd hl hbd hJ hcase
    generalize (Op.run (.add c now) d).world = v at hcase ⊢
    generalize (Op.call (.add c now) d).1 = o at hcase
    rcases hcase with h | ⟨-, h⟩
    · cases h with
      | add h => exact hJ.addChain hwhole h fun p hp => .of_zip hp
      | addEmpty => exact hJ
    · cases h with
      | nothing _ h => exact absurd rfl (h _ _)
      | collected _ h _ => exact absurd rfl (h _ _)
      | add h => exact hJ.breakChain hwhole h fun p hp => .of_zip hp) schedules hn
  have hra := (Spec.attempts_later (.add c now) schedules db).reachable hr
  generalize Spec.attempts (.add c now) schedules db = d at hb hJ hra
  have hcd := hc.attempted hr.healthy hra.healthy hJ
  have hb0 : db.relations.length + c.chain.length + 16 < 2 ^ 32 := by rw [Nat.add_mul, Nat.one_mul, hlen] at hn; omega
  rw [hlen] at hb
  have hcd' : Spec.Importable d.calm c now := ⟨hcd.long, hcd.root, hcd.valid, hcd.live, hcd.whole, hcd.noRevisit, hcd.unrevoked, hcd.fresh⟩
  have hc' : Spec.Importable db.calm c now := ⟨hc.long, hc.root, hc.valid, hc.live, hc.whole, hc.noRevisit, hc.unrevoked, hc.fresh⟩
  obtain ⟨d1, e1, -⟩ := C82_import (hra.weather []) rfl hcd' hb
  obtain ⟨d2, e2, -⟩ := C82_import (hr.weather []) rfl hc' hb0
  obtain ⟨r1, s1⟩ := C82_import_exactly (hra.weather []) rfl hcd' hb e1
  obtain ⟨r2, s2⟩ := C82_import_exactly (hr.weather []) rfl hc' hb0 e2
  have call : ∀ d d' : Db, TrustGraph.add c now d = (.ok (), d') → Op.call (.add c now) d = (.ok .unit, d') := by
    intro d d' h
    show (TrustGraph.add c now >>= fun _ => pure Answer.unit : M Db TrustGraphError Answer) d = _
    rw [M.bind_run, h]
    rfl
  rw [show Op.call (.add c now) d.calm = _ from call _ _ e1, show Op.call (.add c now) db.calm = _ from call _ _ e2]
  refine ⟨rfl, fun q => ?_, fun k => ?_⟩
  · dsimp only
    rw [s1, s2]
    refine or_congr_right ⟨fun ⟨h1, h2, h3⟩ => ⟨?_, h2, h3⟩, fun ⟨h1, h2, h3⟩ => ⟨?_, h2, h3⟩⟩
    · rcases hJ.new _ _ q (hra.healthy.world_relation.mpr ⟨h1, rfl, rfl⟩) with h4 | ⟨t, h4, h5, h6⟩
      · exact (hr.healthy.world_relation.mp h4).1
      · exact absurd ⟨h5.symm, rfl⟩ (h3 _ _ h4)
    · exact (hra.healthy.world_relation.mp (hJ.keep _ _ q (hr.healthy.world_relation.mpr ⟨h1, rfl, rfl⟩) h2
        fun t ht e => h3 _ _ ht ⟨e.symm, rfl⟩)).1
  · dsimp only
    rw [Db.rootFactor_congr r1, Db.rootFactor_congr r2]
    exact Db.same_roots_of_world hra.healthy hr.healthy hJ.roots k

/-- **C117**, as it should be: a call that has been attempted any number of times, whatever SQL statements failed in these attempts and whether or not they
succeeded, has the same answer and the same effect as if it were made for the first time. -/
def C117_statement : Prop := ∀ (op : Op) (db : Db) (schedules : List (List Bool)), Reachable db →
  db.relations.length + (schedules.length + 1) * op.offers.length + 16 < 2 ^ 32 →
  Spec.SameEffect (op.call { Spec.attempts op schedules db with faults := [] }) (op.call { db with faults := [] })

/-- **C117**, for all calls, except that a certificate handed to `add` must be such that it can be imported (C82): its root is registered and so on.
Missing: `add` of other certificates; `C117_fails` (F36). -/
theorem C117_repeat_partial (op : Op) (db : Db) (schedules : List (List Bool)) (hr : Reachable db)
    (hn : db.relations.length + (schedules.length + 1) * op.offers.length + 16 < 2 ^ 32)
    (hadd : ∀ c now, op = .add c now → Spec.Importable db c now) :
    Spec.SameEffect (op.call { Spec.attempts op schedules db with faults := [] }) (op.call { db with faults := [] }) := by
  by_cases h : ∃ c now, op = .add c now
  · obtain ⟨c, now, rfl⟩ := h
    exact repeat_import hr (hadd c now rfl) schedules hn
  · exact repeat_simple hr (fun c now e => h ⟨c, now, e⟩) schedules hn

end TG
