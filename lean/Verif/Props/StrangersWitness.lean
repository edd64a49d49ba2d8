/-
Refutation of C114 at full strength, and examples for its hypotheses, in the toy environment.
-/
import Verif.Props.Strangers
import Verif.Props.ContainmentWitness

namespace TG
open TG.Toy

set_option maxRecDepth 100000

namespace StrangersDemo

/-- Keys 5 and 6 are strangers. -/
def S (k : PublicKey) : Prop := k = pk 5 ∨ k = pk 6

/-- Keys 5 and 6 trust themselves, each other and key 2, and revoke key 2 and the root; somebody forges a trust of the root in key 5. -/
def ops : List Op := [.addTrust (trust 5 5 1000 1) (pk 5) (s 9), .addTrust (trust 5 6 1000 1) (pk 5) (s 9), .addTrust (trust 6 2 1000 1) (pk 6) (s 9),
  .revoke (revocation 5 2 3), .revoke (revocation 6 1 3), .addTrust (trust 5 5 1000 2) (pk 1) (s 10), .weight (pk 5) (s 10)]

def db' : Db := Op.runAll ops Small.db

theorem strangers : Spec.Strangers S Small.db := by
  have h1 : Small.db.rootFactor (pk 5) = none ∧ Small.db.rootFactor (pk 6) = none := by decide +kernel
  have h2 : ∀ row ∈ Small.db.relations, row.issuedFor ≠ keyText (pk 5) ∧ row.issuedFor ≠ keyText (pk 6) := by decide +kernel
  refine ⟨?_, fun a ha hS => ?_⟩
  · rintro k (rfl | rfl)
    · exact h1.1
    · exact h1.2
  · obtain ⟨h3, h4⟩ := h2 _ ha.2
    rcases hS with e | e
    · exact absurd (congrArg keyText e) h3
    · exact absurd (congrArg keyText e) h4

theorem later : Later (fun op => Spec.OnlyBy S op ∧ ∀ t, op.time = some t → asI64 t.secs ≤ asI64 (s 10).secs) Small.db db' := by
  have hforged : ¬ (TrustRelation.auth ⟨trust 5 5 1000 2, pk 1⟩).SignatureValid := by
    unfold TrustRelation.SignatureValid
    decide +kernel
  refine .runAll _ ?_ _
  intro op hop
  simp only [ops, List.mem_cons, List.not_mem_nil, or_false] at hop
  rcases hop with rfl | rfl | rfl | rfl | rfl | rfl | rfl <;>
    refine ⟨⟨fun q hq => ?_, fun _ _ e => nomatch e⟩, fun t e => ?_⟩ <;>
    first
    | (cases e; decide)
    | exact nomatch e
    | exact absurd hq.1 List.not_mem_nil
    | (obtain ⟨hq, hv⟩ := hq
       rw [List.mem_singleton.mp hq] at hv ⊢
       first | exact absurd hv hforged | exact .inl rfl | exact .inr rfl)

theorem facts : (TrustGraph.weight (pk 2) (s 10) Small.db).1 = .ok 512 ∧ (TrustGraph.weight (pk 2) (s 10) db').1 = .ok 512 ∧
    db'.relations.length = Small.db.relations.length + 2 ∧ Sqlite.toRow (.revocation (revocation 5 2 3)) ∈ db'.relations ∧
    Sqlite.toRow (.revocation (revocation 5 2 3)) ∉ Small.db.relations := by decide +kernel

end StrangersDemo

open StrangersDemo in
/-- **C114 fails** (F35): the revocations that strangers have issued stay in the database. -/
theorem C114_fails : ¬ C114_statement := by
  intro h
  obtain ⟨-, -, -, h1, h2⟩ := facts
  exact h2 ((h S Small.db db' (s 10) Small.reachable strangers later).1 (.revocation (revocation 5 2 3)) ⟨show (s 3).Whole from rfl, h1⟩).2

open StrangersDemo in
/-- C114: the hypotheses of the positive parts. -/
example : Reachable Small.db ∧ Spec.Strangers S Small.db ∧
    Later (fun op => Spec.OnlyBy S op ∧ ∀ t, op.time = some t → asI64 t.secs ≤ asI64 (s 10).secs) Small.db db' :=
  ⟨Small.reachable, strangers, later⟩

/-- C114: the hypotheses of `C114_pile_up`. -/
example : Small.db.NoFaults ∧ (∀ r ∈ [revocation 5 2 3, revocation 6 2 3, revocation 6 1 3], r.verify = .ok () ∧ r.revokedAt.Whole) ∧
    (∀ r ∈ [revocation 5 2 3, revocation 6 2 3, revocation 6 1 3], ∀ q, Small.db.Stored q → ¬ q.SamePair (.revocation r)) ∧
    [revocation 5 2 3, revocation 6 2 3, revocation 6 1 3].Pairwise fun r r' => ¬ (TrustRelation.revocation r).SamePair (.revocation r') := by
  have h1 : Small.db.faults = [] := by decide +kernel
  have h2 : ∀ r ∈ [revocation 5 2 3, revocation 6 2 3, revocation 6 1 3], r.verify = .ok () := by decide +kernel
  have h3 : ∀ row ∈ Small.db.relations, row.issuedBy ≠ keyText (pk 5) ∧ row.issuedBy ≠ keyText (pk 6) := by decide +kernel
  have h4 : pk 5 ≠ pk 6 ∧ pk 2 ≠ pk 1 := by decide +kernel
  refine ⟨h1, fun r hr => ⟨h2 r hr, ?_⟩, ?_, ?_⟩
  · simp only [List.mem_cons, List.not_mem_nil, or_false] at hr
    rcases hr with rfl | rfl | rfl <;> rfl
  · intro r hr q hq hp
    obtain ⟨h5, h6⟩ := h3 _ hq.2
    have := congrArg keyText hp.2
    simp only [List.mem_cons, List.not_mem_nil, or_false] at hr
    rcases hr with rfl | rfl | rfl
    · exact h5 this
    · exact h6 this
    · exact h6 this
  · refine .cons ?_ (.cons ?_ (.cons (fun _ h => nomatch h) .nil))
    · intro r hr hp
      simp only [List.mem_cons, List.not_mem_nil, or_false] at hr
      rcases hr with rfl | rfl <;> exact h4.1 hp.2
    · intro r hr hp
      simp only [List.mem_cons, List.not_mem_nil, or_false] at hr
      subst hr
      exact h4.2 hp.1

end TG
