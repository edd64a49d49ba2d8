/-
C135: what adding a certificate costs.
-/
import Verif.Props.StatementsCalls
import Verif.Props.Growth
import Verif.Props.Updates

namespace TG
variable [Env]

omit [Env] in
theorem Spec.Costs.bind {α β : Type} {x : M Db TrustGraphError α} {f : α → M Db TrustGraphError β} {db db' : Db} {n m : Nat} {a : α} {b : β} (hx : Spec.Costs x db n a)
    (hd : ∀ fs, x { db with faults := List.replicate n false ++ fs } = (.ok a, { db' with faults := fs })) (hf : Spec.Costs (f a) db' m b) :
    Spec.Costs (x >>= f) db (n + m) b where
  done := by
    obtain ⟨db'', h⟩ := hf.done
    exact ⟨db'', fun fs => by rw [List.replicate_add, List.append_assoc, M.bind_run_ok (hd _), h]⟩
  stops k hk fs := by
    by_cases h : k < n
    · have := hx.stops k h fs
      rw [M.bind_run]
      rcases hs : x { db with faults := List.replicate k false ++ true :: fs } with ⟨o, s⟩
      rw [hs] at this
      simp only at this
      rw [this]
    · obtain ⟨j, rfl⟩ := Nat.exists_eq_add_of_le (Nat.le_of_not_lt h)
      rw [List.replicate_add, List.append_assoc, M.bind_run_ok (hd _)]
      exact hf.stops j (by omega) fs

/-- The trusts of a chain, each given by the holder of the one before, are added one after the other at the cost of `n` statements in all. -/
inductive Spec.ChainCosts (now : Dur) : Db → PublicKey → List Trust → Nat → Prop where
  | nil {db a} : Spec.ChainCosts now db a [] 0
  | cons {db db' a t ts n m y} : Spec.Costs (TrustGraph.addTrust t a now) db n y →
      (∀ fs, TrustGraph.addTrust t a now { db with faults := List.replicate n false ++ fs } = (.ok y, { db' with faults := fs })) →
      Spec.ChainCosts now db' t.issuedFor ts m → Spec.ChainCosts now db a (t :: ts) (n + m)

/-- What the trusts of a certificate cost is a definite number whenever they verify. -/
theorem Spec.ChainCosts.exist {now : Dur} {ts : List Trust} : ∀ {db : Db} {a : PublicKey}, Reachable db → db.relations.length + ts.length + 16 < 2 ^ 32 →
    (∀ p ∈ (a :: ts.map (·.issuedFor)).zip ts, p.2.verify p.1 now = .ok ()) → ∃ n, Spec.ChainCosts now db a ts n := by
  induction ts with
  | nil => exact fun _ _ _ => ⟨0, .nil⟩
  | cons t ts ih =>
    intro db a hr hn hv
    rw [List.length_cons] at hn
    obtain ⟨_, n, cs, _, _, _, h4, h5⟩ := C103_statements hr a now
    obtain ⟨w, hw⟩ := (C135_questions hr (by omega) (k := a) (now := now) ⟨⟨_, h4⟩, h5⟩).1
    obtain ⟨N, y, hx⟩ : ∃ N y, Spec.Costs (TrustGraph.addTrust t a now) db N y :=
      ⟨_, _, (C135_updates hr).1 t a now _ w _ (hv (a, t) (by simp)) hw rfl (by omega)⟩
    obtain ⟨db', hd⟩ := hx.done
    have e := hd []
    have hr1 := hr.weather (List.replicate N false ++ [])
    have hr2 := (hr1.step (.addTrust t a now)).weather db'.faults
    obtain ⟨⟨valid, hs, -, hl⟩, -⟩ := C138_one_call hr1 (.addTrust t a now)
    have hle : valid.length ≤ 1 := hs.length_le
    simp only [Op.run, e] at hr2 hl
    obtain ⟨m, hm⟩ := ih (db := db') (a := t.issuedFor) hr2 (by omega) fun p hp => hv p (by
      rw [List.map_cons, List.zip_cons_cons]
      exact List.mem_cons_of_mem _ hp)
    exact ⟨_, .cons hx hd hm⟩

/-- **C135**, certificates: adding a certificate costs what its trusts cost one after the other, the first as given by its holder to themselves.  The empty one costs nothing.  There is such a cost
whenever the trusts verify. -/
theorem C135_certificates (now : Dur) :
    (∀ (db : Db) (c : Certificate), Reachable db → db.relations.length + c.chain.length + 16 < 2 ^ 32 → c.chain ≠ [] →
      (∀ p ∈ (Spec.issuers c.chain).zip c.chain, p.2.verify p.1 now = .ok ()) → ∃ t ts n, c.chain = t :: ts ∧ Spec.ChainCosts now db t.issuedFor (t :: ts) n) ∧
    (∀ (db : Db) (t : Trust) (ts : List Trust) (n : Nat), Spec.ChainCosts now db t.issuedFor (t :: ts) n → Spec.Costs (TrustGraph.add ⟨t :: ts⟩ now) db n ()) ∧
    ∀ db : Db, TrustGraph.add ⟨[]⟩ now db = (.err .emptyChain, db) := by
  have key : ∀ {db : Db} {a : PublicKey} {ts : List Trust} {n : Nat}, Spec.ChainCosts now db a ts n → Spec.Costs (TrustGraph.addLoop now a ts) db n () := by
    intro db a ts n h
    induction h with
    | nil => exact ⟨⟨_, fun fs => rfl⟩, fun k hk => absurd hk (Nat.not_lt_zero _)⟩
    | cons hx hd _ ih => exact hx.bind hd ih
  refine ⟨fun db c hr hn hne hv => ?_, fun db t ts n h => key h, fun db => rfl⟩
  rcases hc : c.chain with _ | ⟨t, ts⟩
  · exact absurd hc hne
  · rw [hc] at hn hv
    rw [Spec.issuers_zip] at hv
    obtain ⟨n, h⟩ := Spec.ChainCosts.exist hr hn hv
    exact ⟨t, ts, n, rfl, h⟩

end TG
