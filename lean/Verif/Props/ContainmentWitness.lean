/-
Examples for the hypotheses of C96 and C97, and refutations of their full strength.
-/
import Verif.Props.Containment
import Verif.Props.UpdatesWitness

namespace TG
open TG.Toy

set_option maxRecDepth 100000

namespace Contain

/-- Root 1 trusts key 2, which trusts key 3; root 9, of little weight, trusts key 3; root 1 has revoked key 3. -/
def db : Db := Op.runAll
  [.setRoot (pk 9) 2, .addTrust (trust 9 9 1000 1) (pk 9) (s 1), .addTrust (trust 2 3 1000 1) (pk 2) (s 1), .addTrust (trust 9 3 1000 1) (pk 9) (s 1),
   .revoke (revocation 1 3 5)] Small.db

theorem reachable : Reachable db := Small.reachable.runAll _

/-- Key 3 trusts key 4. -/
def db' : Db := Op.runAll [.addTrust (trust 3 4 1000 1) (pk 3) (s 10)] db

theorem facts : (TrustGraph.weight (pk 3) (s 10) db).1 = .ok 2 ∧ (TrustGraph.weight (pk 4) (s 10) db).1 = .ok 0 ∧
    (TrustGraph.weight (pk 4) (s 10) db').1 = .ok 128 ∧ (TrustGraph.weightFrom (pk 4) (pk 3) (s 10) db').1 = .ok 128 ∧
    (TrustGraph.weight (pk 3) (s 10) db').1 = .ok 2 := by decide +kernel

theorem pair {α β : Type} {x : α × β} {a : α} (h : x.1 = a) : x = (a, x.2) := Prod.ext h rfl

end Contain

open Contain in
/-- **C96 fails** (F2): key 3 has weight 2 and confers weight 128 on key 4, on a chain whose root has revoked key 3. -/
theorem C96_half_fails : ∃ (db s s' : Db) (pk a : PublicKey) (now : Dur) (w wa : Nat), Reachable db ∧ a ≠ pk ∧
    TrustGraph.weightFrom pk a now db = (.ok w, s) ∧ TrustGraph.weight a now db = (.ok wa, s') ∧ max 1 wa < w :=
  ⟨db', _, _, pk 4, pk 3, s 10, 128, 2, reachable.runAll _, by decide +kernel, pair facts.2.2.2.1, pair facts.2.2.2.2, by decide⟩

open Contain in
/-- **C97 fails** (F2): key 3, of weight 2, raises the weight of key 4 from 0 to 128. -/
theorem C97_containment_fails : ∃ (a target : PublicKey) (db db' s s' s'' : Db) (now : Dur) (w w' wa : Nat), Reachable db ∧ db.NoFaults ∧
    Later (Spec.OnlyBy (· = a)) db db' ∧ TrustGraph.weight target now db = (.ok w, s) ∧ TrustGraph.weight target now db' = (.ok w', s') ∧
    TrustGraph.weight a now db = (.ok wa, s'') ∧ max w (max 1 wa) < w' := by
  refine ⟨pk 3, pk 4, db, db', _, _, _, s 10, 0, 128, 2, reachable, show db.faults = [] by decide +kernel, .runAll _ ?_ _, pair facts.2.1,
    pair facts.2.2.1, pair facts.1, by decide⟩
  intro op ho
  rw [List.mem_singleton.mp ho]
  exact ⟨fun q hq => by rw [List.mem_singleton.mp hq.1]; rfl, fun _ _ e => nomatch e⟩

namespace Contain

/-- Keys 2 (weight 512) and 5 (weight 0) sign trusts in 3 and 4 and a revocation of key 6, among others at a time after the query;
somebody forges a trust of the root. -/
def ops : List Op := [.addTrust (trust 2 3 1000 1) (pk 2) (s 10), .addTrust (trust 5 4 1000 1) (pk 5) (s 10), .revoke (revocation 5 6 3),
  .addTrust (trust 2 5 1000 1) (pk 2) (s 10), .addTrust (trust 5 4 1000 1) (pk 5) (s 11), .addTrust (trust 5 4 1000 1) (pk 1) (s 10)]

/-- The hypotheses of C96 and C97. -/
theorem hyps : Later (Spec.OnlyBy (fun k => k = pk 2 ∨ k = pk 5)) Small.db (Op.runAll ops Small.db) ∧
    (∀ r, Small.db.Stored (.revocation r) → False) := by
  constructor
  · refine .runAll _ ?_ _
    have hforged : ¬ (TrustRelation.auth ⟨trust 5 4 1000 1, pk 1⟩).SignatureValid := by
      unfold TrustRelation.SignatureValid
      decide +kernel
    intro op ho
    simp only [ops, List.mem_cons, List.not_mem_nil, or_false] at ho
    rcases ho with rfl | rfl | rfl | rfl | rfl | rfl <;>
      refine ⟨fun q hq => ?_, fun _ _ e => nomatch e⟩ <;> obtain ⟨hq, hv⟩ := hq <;> rw [List.mem_singleton.mp hq] at hv ⊢
    · exact .inl rfl
    · exact .inr rfl
    · exact .inr rfl
    · exact .inl rfl
    · exact .inr rfl
    · exact absurd hv hforged
  · intro r hr
    have h : ∀ row ∈ Small.db.relations, row.relationType ≠ revocationType := by decide +kernel
    exact h _ hr.2 rfl

/-- The bound is reached: key 3 gets half of the weight of key 2, and key 4 a quarter; nothing changes for key 2. -/
example : (TrustGraph.weight (pk 2) (s 10) Small.db).1 = .ok 512 ∧ (TrustGraph.weight (pk 5) (s 10) Small.db).1 = .ok 0 ∧
    (TrustGraph.weight (pk 3) (s 10) Small.db).1 = .ok 0 ∧ (TrustGraph.weight (pk 3) (s 10) (Op.runAll ops Small.db)).1 = .ok 256 ∧
    (TrustGraph.weightFrom (pk 3) (pk 2) (s 10) (Op.runAll ops Small.db)).1 = .ok 256 ∧
    (TrustGraph.weight (pk 4) (s 10) (Op.runAll ops Small.db)).1 = .ok 128 ∧
    (TrustGraph.weight (pk 2) (s 10) (Op.runAll ops Small.db)).1 = .ok 512 := by decide +kernel

/-- Keys without weight: what key 5 signs changes nothing. -/
example : (TrustGraph.weight (pk 5) (s 10) Small.db).1 = .ok 0 ∧
    (Op.runAll [.addTrust (trust 5 4 1000 1) (pk 5) (s 10), .revoke (revocation 5 2 3)] Small.db).relations.length = 3 ∧
    (TrustGraph.weight (pk 2) (s 10) (Op.runAll [.addTrust (trust 5 4 1000 1) (pk 5) (s 10), .revoke (revocation 5 2 3)] Small.db)).1 = .ok 512 := by
  decide +kernel

/-- C97, what they cannot touch: the first four calls are not made after time 10; the certificate of key 2, on which only the last key is in `S`, stays. -/
example : (∀ op ∈ ops.take 4, ∀ t, op.time = some t → asI64 t.secs ≤ asI64 (s 10).secs) ∧
    (TrustGraph.getAllCerts (pk 2) (s 10) Small.db).1 = .ok [⟨[trust 1 1 1000 1, trust 1 2 1000 1]⟩] ∧
    (TrustGraph.getAllCerts (pk 2) (s 10) (Op.runAll (ops.take 4) Small.db)).1 = .ok [⟨[trust 1 1 1000 1, trust 1 2 1000 1]⟩] ∧
    pk 1 ≠ pk 2 ∧ pk 1 ≠ pk 5 := by
  refine ⟨?_, by decide +kernel⟩
  intro op ho t ht
  simp only [ops, List.take, List.mem_cons, List.not_mem_nil, or_false] at ho
  rcases ho with rfl | rfl | rfl | rfl <;> cases ht <;> decide

end Contain
end TG
