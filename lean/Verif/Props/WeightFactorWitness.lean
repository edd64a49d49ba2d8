/-
Examples for C111 and its refutation at full strength.
-/
import Verif.Props.WeightFactor
import Verif.Props.CertsWitness

namespace TG
open TG.Toy

set_option maxRecDepth 100000

namespace FactorDemo

/-- The certificate root 1 → 2 → 3 in the database in which root 1 has revoked key 3. -/
def revoked : Certificate := ⟨[trust 1 1 1000 1, trust 1 2 1000 1, trust 2 3 1000 1]⟩
/-- A certificate that nobody has signed: root 1 followed by key 9. -/
def madeUp : Certificate := ⟨[trust 1 1 1000 1, trust 7 9 1000 1]⟩
/-- The key 2 is not a root. -/
def noRoot : Certificate := ⟨[trust 2 2 1000 1, trust 2 3 1000 1]⟩

theorem answers :
    [(TrustGraph.certificatesWeightFactor [] F2.db).1,
     (TrustGraph.certificatesWeightFactor [revoked] F2.db).1,
     (TrustGraph.certificatesWeightFactor [revoked, madeUp] F2.db).1,
     (TrustGraph.certificatesWeightFactor [revoked, noRoot, ⟨[]⟩] F2.db).1,
     (TrustGraph.certificatesWeightFactor [revoked, ⟨[]⟩, noRoot] F2.db).1]
      = [.ok none, .ok (some 8), .ok (some 7), .err .noRoot, .err (.certificateCheckError .certificateLengthError)] := by
  decide +kernel

end FactorDemo

open FactorDemo

/-- C111: the hypotheses hold, and all kinds of answers occur.  The certificate that the library itself does not return any more has
a factor. -/
example : F2.db.Healthy ∧ F2.db.NoFaults ∧ (∀ c ∈ [revoked, madeUp, noRoot, ⟨[]⟩], c.chain.length + 16 < 2 ^ 32) ∧
    (TrustGraph.getAllCerts (pk 3) (s 10) F2.db).1 = .ok [] :=
  ⟨(Reachable.init.runAll F2.ops).healthy, by show F2.db.faults = []; decide +kernel, by decide, F2.gone⟩

/-- C111: the hypotheses of the theorem about the weight. -/
example : F2.db.rootFactor (pk 4) = none ∧ F2.db.relations.length + 16 < 2 ^ 32 ∧
    (TrustGraph.weight (pk 4) (s 10) F2.db).1 = .ok 128 ∧ (TrustGraph.getAllCerts (pk 4) (s 10) F2.db).1 = .ok [F2.cert] ∧
    (TrustGraph.certificatesWeightFactor [F2.cert] F2.db).1 = .ok (some 9) := by decide +kernel

/-- **C111 fails** (finding F33): a certificate on which the root has revoked a key has a factor all the same. -/
theorem C111_fails : ¬ C111_statement := by
  intro h
  have h := h F2.db (Reachable.init.runAll F2.ops) (by show F2.db.faults = []; decide +kernel) (s 10) [revoked] (by decide)
  have e : (TrustGraph.certificatesWeightFactor [revoked] F2.db).1 = .ok (some 8) := by decide +kernel
  have hr : ¬ Spec.Unrevoked (F2.db.snapshot (s 10)) revoked.chain := fun h =>
    h 0 2 _ _ (by omega) rfl rfl ⟨revocation 1 3 5, ⟨rfl, F2.stored⟩, rfl, rfl⟩
  rw [e, List.filter_cons_of_neg (by simpa using hr), List.filter_nil] at h
  cases h with
  | best f hf l w =>
    obtain ⟨c, hc, -⟩ := w.1
    cases hc

/-- C111: the trusts need not be known to the database, nor verify. -/
example : (Certificate.verify madeUp [pk 1] (s 10)).isOk = false ∧ (TrustGraph.certificatesWeightFactor [madeUp] F2.db).1 = .ok (some 7) := by
  decide +kernel

end TG
