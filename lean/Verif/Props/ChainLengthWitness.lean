/-
Refutation of C12 at full strength and an example for what holds.
-/
import Verif.Props.ChainLength
import Verif.Props.WeightsWitness

namespace TG
open TG.Toy

/-- Running calls extends the history. -/
theorem History.runAll [Env] {ops : List Op} {db : Db} (h : History ops db) (more : List Op) :
    History (ops ++ more) (Op.runAll more db) := by
  induction more generalizing ops db with
  | nil => rw [List.append_nil]; exact h
  | cons op more ih =>
    have := ih (h.step op)
    rw [List.append_assoc] at this
    exact this

namespace F7

theorem history : History ops db := History.init.runAll ops

end F7

/-- **C12 fails** (finding F7): root 1 was registered with `max_chain_len` 1; the only certificate of key 4 has two trusts after
the root trust, yet key 4 (not a root) has weight 1. -/
theorem C12_max_chain_len_fails : ¬ C12_statement := by
  intro h
  obtain ⟨h1, h2, h3⟩ := F7.facts
  have := h F7.ops F7.db (pk 4) (s 10) 1 [F7.cert] F7.history h1 h2
    (fun hr => by have := Db.rootFactor_isSome.mpr hr; rw [h3] at this; cases this) ?_
  · cases this
  · intro root rest n hm hn
    rw [List.mem_singleton] at hm
    have e : root :: rest = [trust 1 1 1000 1, trust 1 3 1000 1, trust 3 4 1000 1] := congrArg Certificate.chain hm
    obtain ⟨rfl, rfl⟩ := List.cons.inj e
    have hn' : Op.setRoot (pk 1) n ∈ F7.ops := hn
    have : n = 1 := by
      simp only [F7.ops, List.mem_cons, Op.setRoot.injEq, reduceCtorEq, List.not_mem_nil, or_false] at hn'
      rcases hn' with ⟨-, rfl⟩ | ⟨h, -⟩
      · rfl
      · exact absurd h (by decide)
    subst this
    decide

/-- C12: the history of the refutation also meets the hypotheses of the theorem. -/
example : History F7.ops F7.db ∧ F7.db.relations.length + 16 < 2 ^ 32 ∧ Op.setRoot (pk 1) 1 ∈ F7.ops ∧
    (TrustGraph.weight (pk 4) (s 10) F7.db).1 = .ok 1 ∧
    (TrustGraph.getAllCerts (pk 4) (s 10) F7.db).1 = .ok [F7.cert] :=
  ⟨F7.history, by decide +kernel, by simp [F7.ops], F7.facts.1, F7.facts.2.1⟩

end TG
