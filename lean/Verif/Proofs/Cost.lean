/-
How many SQL statements a query executes.  Each uses up one entry of the fault schedule.
-/
import Verif.Proofs.FailStop

namespace TG
open TG.Sqlite

theorem M.bind_ok_inv {S ε α β : Type} {x : M S ε α} {f : α → M S ε β} {s s' : S} {b : β} (h : (x >>= f) s = (.ok b, s')) :
    ∃ a s1, x s = (.ok a, s1) ∧ f a s1 = (.ok b, s') := by
  rw [M.bind_run] at h
  rcases hx : x s with ⟨a | _ | _ | _, s1⟩
  all_goals rw [hx] at h
  · exact ⟨a, s1, rfl, h⟩
  all_goals cases h

/-- A successful run of `x` with result `a` executes at least `k a` statements, unless the schedule ends before. -/
def Costs {ε α : Type} (x : M Db ε α) (k : α → Nat) : Prop :=
  ∀ db a db', x db = (.ok a, db') → db'.faults = [] ∨ db'.faults.length + k a ≤ db.faults.length

namespace Costs
variable {ε α β : Type} {F : ε → Prop}

/-- The schedule never gets longer. -/
theorem of_failStop {x : M Db ε α} (h : FailStop F x) : Costs x (fun _ => 0) := by
  intro db a db' hx
  rcases h db with ⟨n, hn⟩ | ⟨n, hn, -⟩
  all_goals
    rw [hx] at hn
    simp only at hn
    rw [hn]
    simp only [List.length_append, List.length_replicate, List.length_cons]
    omega

theorem bind {x : M Db ε α} {f : α → M Db ε β} {k : α → Nat} {l : α → β → Nat} {m : β → Nat} (hx : Costs x k) (hf : ∀ a, Costs (f a) (l a))
    (hm : ∀ a b db db', f a db = (.ok b, db') → m b ≤ k a + l a b) : Costs (x >>= f) m := by
  intro db b db' h
  obtain ⟨a, s1, h1, h2⟩ := M.bind_ok_inv h
  rcases hf a s1 b db' h2 with h3 | h3
  · exact .inl h3
  rcases hx db a s1 h1 with h4 | h4
  · rw [h4] at h3
    simp only [List.length_nil] at h3
    exact .inl (List.eq_nil_of_length_eq_zero (by omega))
  · have := hm a b s1 db' h2
    exact .inr (by omega)

/-- What comes before does not make it cheaper. -/
theorem after {x : M Db ε α} {f : α → M Db ε β} {m : β → Nat} (hx : FailStop F x) (hf : ∀ a, Costs (f a) m) : Costs (x >>= f) m :=
  (of_failStop hx).bind hf fun _ _ _ _ _ => by omega

end Costs

variable [Env]

omit [Env] in
theorem stmt_costs {α : Type} {f : Db → Outcome SqlError α × Db} (h : ∀ db, (f db).2.faults = db.faults) : Costs (stmt f) (fun _ => 1) := by
  intro db a db' hx
  unfold stmt at hx
  split at hx
  · rename_i hf
    have := h db
    rw [hx, hf] at this
    exact .inl this
  · cases hx
  · rename_i fs hf
    have := h { db with faults := fs }
    rw [hx] at this
    simp only at this
    rw [this, hf]
    exact .inr (Nat.le_refl _)

theorem storage_ok_inv {S σ α : Type} [Storage S σ] {x : M S σ α} {s s' : S} {a : α} (h : TrustGraph.storage x s = (.ok a, s')) : x s = (.ok a, s') := by
  unfold TrustGraph.storage M.mapErr at h
  rcases hx : x s with ⟨o | _ | _ | _, s1⟩
  all_goals rw [hx] at h; cases h
  rfl

theorem getAuthorizations_costs (pk : PublicKey) : Costs (TrustGraph.storage (S := Db) (Storage.getAuthorizations pk)) (fun _ => 1) := by
  have h : Costs (Sqlite.getAuthorizations pk) (fun _ => 1) :=
    (stmt_costs fun _ => rfl).bind (fun _ => .of_failStop (F := IsSqlite) (.pure _)) fun _ _ _ _ _ => by omega
  exact fun db a db' hx => h db a db' (storage_ok_inv hx)

/-- The search executes a statement for each path it returns. -/
theorem bfLoop_costs (roots : List PublicKey) (fuel : Nat) (queue : List Chain) (term : List (List Auth)) :
    Costs (TrustGraph.bfLoop (S := Db) roots fuel queue term) (fun r => r.length - term.length) := by
  induction fuel generalizing queue term with
  | zero =>
    intro db r db' h
    rcases queue with _ | ⟨c, q⟩
    · cases h
      exact .inr (by simp only; omega)
    · cases h
  | succ fuel ih =>
    rcases queue with _ | ⟨c, q⟩
    · intro db r db' h
      cases h
      exact .inr (by simp only; omega)
    · rw [TrustGraph.bfLoop]
      refine (getAuthorizations_costs _).bind (fun as => Costs.after (TrustGraph.extendAll_failStop _ _) fun new => ih _ _) ?_
      intro as r _ _ _
      split
      · rw [List.length_append, List.length_singleton]
        omega
      · omega

theorem bfSearchPaths_costs (pk : PublicKey) (roots : List PublicKey) : Costs (TrustGraph.bfSearchPaths (S := Db) pk roots) (fun r => r.length) := by
  intro db r db' h
  unfold TrustGraph.bfSearchPaths at h
  simp only at h
  obtain ⟨as, s1, h1, h2⟩ := M.bind_ok_inv h
  obtain ⟨rs, s2, h3, h4⟩ := M.bind_ok_inv h2
  have c1 := Costs.of_failStop (TrustGraph.storage_failStop (getAuthorizations_failStop pk)) _ _ _ h1
  have c2 := Costs.of_failStop (TrustGraph.storage_failStop (getRevocations_failStop pk)) _ _ _ h3
  have c3 := bfLoop_costs _ _ _ _ _ _ _ h4
  simp only [List.length_nil, Nat.sub_zero, Nat.add_zero] at c1 c2 c3
  rcases c3 with c3 | c3
  · exact .inl c3
  rcases c2 with c2 | c2
  · rw [c2] at c3
    simp only [List.length_nil] at c3
    exact .inl (List.eq_nil_of_length_eq_zero (by omega))
  rcases c1 with c1 | c1
  · rw [c1] at c2
    simp only [List.length_nil] at c2
    exact .inl (List.eq_nil_of_length_eq_zero (by omega))
  exact .inr (by simp only; omega)

theorem filterShort_length {cs cs' : List Certificate} (h : TrustGraph.filterShort cs = .ok cs') : cs'.length ≤ cs.length := by
  induction cs generalizing cs' with
  | nil => cases h; exact Nat.le_refl _
  | cons c cs ih =>
    rw [TrustGraph.filterShort] at h
    split at h
    · obtain ⟨rest, h1, h2⟩ := Outcome.bind_eq_ok.mp h
      cases h2
      have := ih h1
      simp only [List.length_cons]
      omega
    · split at h
      · cases h
      · have := ih h
        simp only [List.length_cons]
        omega

/-- `get_all_certs` executes at least one statement for each certificate. -/
theorem getAllCerts_costs (pk : PublicKey) (now : Dur) : Costs (TrustGraph.getAllCerts (S := Db) pk now) (fun cs => cs.length) := by
  unfold TrustGraph.getAllCerts
  refine Costs.after (F := IsInternal) (TrustGraph.storage_failStop (removeExpired_failStop now)) fun _ => ?_
  refine Costs.after (F := IsInternal) (TrustGraph.storage_failStop rootKeys_failStop) fun keys => ?_
  refine (bfSearchPaths_costs _ _).bind (fun _ => .of_failStop (F := IsInternal) (.lift _)) ?_
  intro paths cs db db' h
  have := filterShort_length (Prod.ext_iff.mp h).1
  rw [List.length_map] at this
  omega

end TG
