/-
Refutation of C113 at full strength, and examples for its hypotheses, in the toy environment.
-/
import Verif.Props.ShutOut
import Verif.Props.ContainmentWitness

namespace TG
open TG.Toy

set_option maxRecDepth 100000

namespace ShutOutDemo

/-- Root 1 trusts key 2, which trusts key 3; root 9 trusts key 3, too; key 3 trusts key 4; then both roots revoke key 3. -/
def db : Db := Op.runAll
  [.setRoot (pk 9) 2, .addTrust (trust 9 9 1000 1) (pk 9) (s 1), .addTrust (trust 2 3 1000 1) (pk 2) (s 1), .addTrust (trust 9 3 1000 1) (pk 9) (s 1),
   .addTrust (trust 3 4 500 1) (pk 3) (s 1), .revoke (revocation 1 3 5), .revoke (revocation 9 3 5)] Small.db

/-- An old trust of root 9 in key 3, a newer one of key 2, and one of root 1 that key 5 has forged; key 3 trusts key 5; root 9 is set again. -/
def ops : List Op := [.addTrust (trust 9 3 1000 1) (pk 9) (s 6), .addTrust (trust 2 3 1000 6) (pk 2) (s 6), .addTrust (trust 5 3 1000 9) (pk 1) (s 6),
  .addTrust (trust 3 5 1000 6) (pk 3) (s 6), .setRoot (pk 9) 5]

def db' : Db := Op.runAll ops db

theorem reachable : Reachable db := Small.reachable.runAll _

theorem shutOut : Spec.ShutOut db (pk 3) := by
  have h1 : db.rootFactor (pk 3) = none := by decide +kernel
  have h2 : ∀ row ∈ db.roots, row.publicKey = keyText (pk 1) ∨ row.publicKey = keyText (pk 9) := by decide +kernel
  have h3 : Sqlite.toRow (.revocation (revocation 1 3 5)) ∈ db.relations ∧ Sqlite.toRow (.revocation (revocation 9 3 5)) ∈ db.relations := by
    decide +kernel
  refine ⟨h1, fun R hR => ?_⟩
  obtain ⟨row, hm, e⟩ := Db.rootFactor_isSome.mp hR
  rcases h2 row hm with h | h
  · exact ⟨revocation 1 3 5, ⟨show (s 5).Whole from rfl, h3.1⟩, keyText_inj (h.symm.trans e), rfl⟩
  · exact ⟨revocation 9 3 5, ⟨show (s 5).Whole from rfl, h3.2⟩, keyText_inj (h.symm.trans e), rfl⟩

theorem keepsOut : ∀ op ∈ ops, Spec.KeepsOut db (pk 3) op := by
  have hforged : ¬ (TrustRelation.auth ⟨trust 5 3 1000 9, pk 1⟩).SignatureValid := by
    unfold TrustRelation.SignatureValid
    decide +kernel
  have h2 : db.rootFactor (pk 2) = none := by decide +kernel
  have h35 : pk 5 ≠ pk 3 := by decide +kernel
  have h9 : (db.rootFactor (pk 9)).isSome := by decide +kernel
  have hrev : db.Stored (.revocation (revocation 9 3 5)) := ⟨show (s 5).Whole from rfl, by decide +kernel⟩
  intro op hop
  simp only [ops, List.mem_cons, List.not_mem_nil, or_false] at hop
  rcases hop with rfl | rfl | rfl | rfl | rfl
  · refine ⟨fun _ _ e => (nomatch e), ?_⟩
    rintro a r ⟨ha, -⟩ - - hr hb hp
    cases List.mem_singleton.mp ha
    cases reachable.healthy.stored_unique hr hrev hp hb
    decide
  · refine ⟨fun _ _ e => (nomatch e), ?_⟩
    rintro a r ⟨ha, -⟩ hroot
    cases List.mem_singleton.mp ha
    change (db.rootFactor (pk 2)).isSome at hroot
    rw [h2] at hroot
    cases hroot
  · refine ⟨fun _ _ e => (nomatch e), ?_⟩
    rintro a r ⟨ha, hv⟩
    cases List.mem_singleton.mp ha
    exact absurd hv hforged
  · refine ⟨fun _ _ e => (nomatch e), ?_⟩
    rintro a r ⟨ha, -⟩ - h3
    cases List.mem_singleton.mp ha
    exact absurd h3 h35
  · refine ⟨fun k n e => ?_, ?_⟩
    · cases e
      exact h9
    · rintro a r ⟨ha, -⟩
      cases ha

/-- The certificate of key 4 through key 3. -/
def cert : Certificate := ⟨[trust 1 1 1000 1, trust 1 2 1000 1, trust 2 3 1000 6, trust 3 4 500 1]⟩

theorem facts : (TrustGraph.getAllCerts (pk 4) (s 10) db').1 = .ok [cert] ∧ (TrustGraph.weightFrom (pk 4) (pk 3) (s 10) db').1 = .ok 128 ∧
    (TrustGraph.weight (pk 3) (s 10) db').1 = .ok 0 ∧ (TrustGraph.weight (pk 4) (s 500) db').1 = .ok 0 ∧
    (TrustGraph.weight (pk 5) (s 10) db').1 = .ok 0 := by decide +kernel

end ShutOutDemo

open ShutOutDemo in
/-- **C113 fails** (F2): both roots have revoked key 3, and yet key 3 confers weight 128 on key 4. -/
theorem C113_fails : ¬ C113_statement := by
  intro h
  obtain ⟨-, -, -, -, h5⟩ := h db db' (pk 3) reachable shutOut (.runAll _ keepsOut _) (s 10)
  have := h5 (pk 4) 128 _ (Contain.pair facts.2.1)
  cases this

open ShutOutDemo in
/-- C113: the hypotheses. -/
example : Reachable db ∧ Spec.ShutOut db (pk 3) ∧ Later (Spec.KeepsOut db (pk 3)) db db' := ⟨reachable, shutOut, .runAll _ keepsOut _⟩

end TG
