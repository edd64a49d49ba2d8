/-
C139: examples in the toy environment.
-/
import Verif.Props.Distance
import Verif.Spec.Toy

namespace TG
open TG.Toy
set_option maxRecDepth 100000
set_option synthInstance.maxSize 1024

namespace Circles

/-- Root 1 trusts keys 2 and 3, key 2 trusts key 3, key 3 trusts keys 2 and 4, key 4 trusts key 2: three ways lead to key 4, and many in circles. -/
def ops : List Op := [.setRoot (pk 1) 8, .addTrust (trust 1 1 1000 1) (pk 1) (s 2), .addTrust (trust 1 2 1000 1) (pk 1) (s 2), .addTrust (trust 2 3 1000 1) (pk 2) (s 2),
  .addTrust (trust 1 3 1000 1) (pk 1) (s 2), .addTrust (trust 3 2 1000 1) (pk 3) (s 2), .addTrust (trust 3 4 1000 1) (pk 3) (s 2), .addTrust (trust 4 2 1000 1) (pk 4) (s 2)]

def db : Db := Op.runAll ops ⟨[], [], []⟩

theorem reachable : Reachable db := Reachable.init.runAll ops

theorem facts : db.faults = [] ∧ db.relations.length = 7 ∧ (∀ row ∈ db.relations, row.relationType = authType) ∧ (∀ row ∈ db.roots, row.publicKey = keyText (pk 1)) ∧
    Sqlite.toRow (.auth ⟨trust 1 1 1000 1, pk 1⟩) ∈ db.relations ∧ Sqlite.toRow (.auth ⟨trust 1 3 1000 1, pk 1⟩) ∈ db.relations ∧
    Sqlite.toRow (.auth ⟨trust 3 4 1000 1, pk 3⟩) ∈ db.relations ∧ db.rootFactor (pk 1) = some 8 := by decide +kernel

theorem noRevocations (now : Dur) (a b : PublicKey) : ¬ (db.snapshot now).revoked a b := by
  rintro ⟨r, hr, -⟩
  exact absurd (facts.2.2.1 _ hr.2) (by show revocationType ≠ authType; decide)

theorem selfSigned (a : PublicKey) (h : (db.rootFactor a).isSome) : ∃ t : Trust, t.issuedFor = a ∧ (db.snapshot (s 10)).trusted a t := by
  obtain ⟨row, hr, e⟩ := Db.rootFactor_isSome.mp h
  obtain rfl := keyText_inj ((facts.2.2.2.1 row hr).symm.trans e)
  exact ⟨trust 1 1 1000 1, by decide, ⟨⟨⟨rfl, rfl⟩, facts.2.2.2.2.1⟩, by unfold Spec.Live; decide⟩⟩

/-- Trust leads to key 4, over key 3. -/
theorem led : Spec.Led db (s 10) (pk 4) 10 := by
  obtain ⟨-, -, -, -, h1, h2, h3, hf⟩ := facts
  have l1 : Spec.Led db (s 10) (pk 1) 8 := .root (t := trust 1 1 1000 1) hf (by decide) ⟨⟨⟨rfl, rfl⟩, h1⟩, by unfold Spec.Live; decide⟩
  have l2 : Spec.Led db (s 10) (pk 3) 9 := l1.step (t := trust 1 3 1000 1) ⟨⟨⟨rfl, rfl⟩, h2⟩, by unfold Spec.Live; decide⟩
  exact l2.step (t := trust 3 4 1000 1) ⟨⟨⟨rfl, rfl⟩, h3⟩, by unfold Spec.Live; decide⟩

/-- The weights of the four keys. -/
theorem weights : [1, 2, 3, 4, 5].map (fun n => (TrustGraph.weight (pk n) (s 10) db).1) = [.ok 256, .ok 128, .ok 128, .ok 64, .ok 0] := by decide +kernel

end Circles
open Circles

/-- C139: the hypotheses hold, and the way over key 3 is the best. -/
example : ∃ w s', TrustGraph.weight (pk 4) (s 10) db = (.ok w, s') ∧ 2 ^ (16 - 10) ≤ w ∧
    IsGreatest {x | x = 0 ∨ (∃ f, db.rootFactor (pk 4) = some f ∧ x = 2 ^ (16 - f)) ∨
      ∃ (a : PublicKey) (t : Trust) (wa : Nat), (db.snapshot (s 10)).trusted a t ∧ t.issuedFor = pk 4 ∧ (TrustGraph.weight a (s 10) db).1 = .ok wa ∧ 0 < wa ∧ x = max 1 (wa / 2)} w := by
  have hn : db.relations.length + 16 < 2 ^ 32 := by rw [facts.2.1]; decide
  obtain ⟨w, h⟩ := Db.weight_returns reachable.healthy facts.1 (.inr hn) (pk 4) (s 10)
  exact ⟨w, _, h, (C139_distance reachable hn (fun a _ b _ => noRevocations _ a b) h).2 (.inr (.inr ⟨_, led, rfl⟩)),
    C139_neighbours reachable facts.1 hn (fun a _ b _ => noRevocations _ a b) selfSigned h⟩

/-- C139: roots must have signed for themselves: root 1 has not, so that key 2, which it trusts, has no weight. -/
example : [1, 2].map (fun n => (TrustGraph.weight (pk n) (s 10) (Op.runAll [.setRoot (pk 1) 8, .addTrust (trust 1 2 1000 1) (pk 1) (s 2)] ⟨[], [], []⟩)).1) = [.ok 256, .ok 0] := by
  decide +kernel

/-- C139: with revocations there may be less weight than trust leads to: key 1 has revoked key 4. -/
example : (TrustGraph.weight (pk 4) (s 10) (Op.runAll [.revoke (revocation 1 4 5)] db)).1 = .ok 0 := by decide +kernel

end TG
