/-
C135: examples in the toy environment.
-/
import Verif.Props.StatementsCalls
import Verif.Props.StatementsAdd
import Verif.Props.BlowupWitness

namespace TG.CostDemo
open TG.Toy TG.BlowupDemo
set_option maxRecDepth 100000

/-- The number of certificates in an answer. -/
def count : Outcome TrustGraphError (List Certificate) × Db → Nat
  | (.ok cs, _) => cs.length
  | _ => 0

/-- The weight in an answer. -/
def weightOf : Outcome TrustGraphError Nat × Db → Nat
  | (.ok w, _) => w
  | _ => 0

theorem facts : count (TrustGraph.getAllCerts (pk 4) (s 10) { Demo.db with faults := List.replicate 27 false ++ [] }) = 4 ∧
    2 ≤ weightOf (TrustGraph.weight (pk 4) (s 10) { Demo.db with faults := List.replicate 32 false ++ [] }) ∧
    (trust 4 6 900 2).verify (pk 4) (s 10) = .ok () ∧ (∀ row ∈ Demo.db.relations, row.issuedFor ≠ keyText (pk 6)) ∧ pk 4 ≠ pk 6 := by decide +kernel

theorem cost_of_certs : ∃ cs, cs.length = 4 ∧ Spec.Costs (TrustGraph.getAllCerts (pk 4) (s 10)) Demo.db 27 cs := by
  obtain ⟨_, cost, cs, _, _, _, h4, h5⟩ := C103_statements Demo.reachable (pk 4) (s 10)
  obtain rfl := observed h4 h5 demo_cost
  refine ⟨cs, ?_, ⟨_, h4⟩, h5⟩
  have h := facts.1
  rw [h4] at h
  exact h

/-- Key 4 has four certificates, which are found with 27 statements.  Its weight costs 32.  When it trusts a new key this costs 34, and it gets half of the weight. -/
example : ∃ w, 2 ≤ w ∧ Spec.Costs (TrustGraph.weight (pk 4) (s 10)) Demo.db 32 w ∧ Spec.Costs (TrustGraph.addTrust (trust 4 6 900 2) (pk 4) (s 10)) Demo.db 34 (w / 2) := by
  obtain ⟨cs, hl, hc⟩ := cost_of_certs
  have hb : Demo.db.relations.length + 16 < 2 ^ 32 := by rw [Demo.tables.1]; decide
  obtain ⟨w, hw⟩ := (C135_questions Demo.reachable hb hc).1
  rw [hl] at hw
  have h2 : 2 ≤ w := by
    obtain ⟨d, hd⟩ := hw.done
    have h := facts.2.1
    rw [hd] at h
    exact h
  obtain ⟨_, _, hv, hr, hne⟩ := facts
  refine ⟨w, h2, hw, ?_⟩
  have h := (C135_updates Demo.reachable).1 (trust 4 6 900 2) (pk 4) (s 10) 32 w (w / 2) hv hw (if_neg hne).symm hb
  rw [if_neg (by omega), if_pos] at h
  · exact h
  · intro q hq _ hp
    refine absurd ?_ (hr _ hq.2)
    rw [toRow_issuedFor, hp.1]
    rfl

/-- A database with one root, and a certificate from the root to key 3. -/
def young : Db := Op.runAll [.setRoot (pk 1) 8] ⟨[], [], []⟩

def cert : Certificate := ⟨[trust 1 1 900 1, trust 1 2 900 1, trust 2 3 900 1]⟩

theorem young_facts : young.relations.length = 0 ∧ (∀ p ∈ (Spec.issuers cert.chain).zip cert.chain, p.2.verify p.1 (s 10) = .ok ()) ∧
    justDone (TrustGraph.add cert (s 10) { young with faults := List.replicate 26 false ++ [true] }) = true := by decide +kernel

/-- The certificate is added with 26 statements. -/
example : Spec.Costs (TrustGraph.add cert (s 10)) young 26 () := by
  obtain ⟨h0, hv, hj⟩ := young_facts
  obtain ⟨he, ha, -⟩ := C135_certificates (s 10)
  obtain ⟨t, ts, n, hc, hn⟩ := he young cert (Reachable.init.runAll _) (by rw [h0]; decide) (by decide) hv
  have h := ha young t ts n hn
  rw [← hc] at h
  obtain ⟨_, hd⟩ := h.done
  obtain rfl := observed hd h.stops hj
  exact h

end TG.CostDemo
