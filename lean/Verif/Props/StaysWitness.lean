/-
Examples for the hypotheses of C121, in the toy environment.
-/
import Verif.Props.Stays
import Verif.Props.UpdatesWitness
import Verif.Props.CarryWitness
import Verif.Proofs.Bootstrap

namespace TG
open TG.Toy

set_option maxRecDepth 100000

namespace StaysDemo

/-- The certificate of key 2, of which all trusts expire at 1000. -/
def cert : Certificate := ⟨[trust 1 1 1000 1, trust 1 2 1000 1]⟩

/-- The root has renewed both trusts until 3000. -/
def renewed : Certificate := ⟨[trust 1 1 3000 900, trust 1 2 3000 900]⟩

/-- Up to the time 990: key 9 becomes a root, trusts itself and revokes key 2 and the root; somebody forges a revocation of key 2 by the root; key 2 revokes key 9;
the root is registered again; weights are asked for. -/
def spares : List Op := [.setRoot (pk 9) 5, .addTrust (trust 9 9 1000 1) (pk 9) (s 20), .revoke (revocation 9 2 30), .revoke (revocation 9 1 30),
  .revoke { revocation 9 2 31 with revokedBy := pk 1 }, .revoke (revocation 2 9 30), .setRoot (pk 1) 3, .weight (pk 2) (s 990)]

/-- Besides, the root renews its trust in key 2. -/
def sustains : List Op := .addTrust (trust 1 2 2000 500) (pk 1) (s 600) :: spares

theorem forged : ¬ (TrustRelation.revocation { revocation 9 2 31 with revokedBy := pk 1 }).SignatureValid := by
  unfold TrustRelation.SignatureValid
  decide +kernel

theorem spares_ok : ∀ op ∈ spares, Spec.Spares cert.keys (s 990) op := by
  have h9 : pk 9 ∉ cert.keys := by decide +kernel
  intro op hop
  simp only [spares, List.mem_cons, List.not_mem_nil, or_false] at hop
  rcases hop with rfl | rfl | rfl | rfl | rfl | rfl | rfl | rfl <;>
    refine ⟨fun t e => ?_, fun q hq => ?_⟩ <;>
    first
    | (cases e; decide)
    | exact nomatch e
    | exact absurd hq.1 List.not_mem_nil
    | (obtain ⟨hq, hv⟩ := hq
       rw [List.mem_singleton.mp hq] at hv ⊢
       first | exact absurd hv forged | exact fun h => h9 h.1 | exact fun h => h9 h.2)

theorem sustains_ok : ∀ op ∈ sustains, Spec.Sustains cert.keys (s 990) op := by
  intro op hop
  rcases List.mem_cons.mp hop with rfl | hop
  · refine ⟨fun t e => by cases e; decide, fun q hq _ _ => ⟨_, List.mem_singleton.mp hq.1, by unfold Spec.Live; decide⟩⟩
  · obtain ⟨h1, h2⟩ := spares_ok op hop
    exact ⟨h1, fun q hq h3 h4 => absurd ⟨h3, h4⟩ (h2 q hq)⟩

theorem facts : (TrustGraph.getAllCerts (pk 2) (s 10) Small.db).1 = .ok [cert] ∧ Small.db.certWeight cert = 512 ∧
    (TrustGraph.getAllCerts (pk 2) (s 990) (Op.runAll spares Small.db)).1 = .ok [cert] ∧
    (TrustGraph.getAllCerts (pk 2) (s 990) (Op.runAll sustains Small.db)).1 = .ok [⟨[trust 1 1 1000 1, trust 1 2 2000 500]⟩] ∧
    (TrustGraph.weight (pk 2) (s 990) (Op.runAll sustains Small.db)).1 = .ok 512 ∧
    (Op.runAll sustains Small.db).relations.length + 16 < 2 ^ 32 := by decide +kernel

theorem live : ∀ t ∈ cert.chain, Spec.Live t (s 990) := by unfold Spec.Live; decide +kernel

/-- The certificate is renewed at 950, when it is still in force; at 2500 the new one is. -/
theorem renewed_facts : (TrustGraph.getAllCerts (pk 2) (s 950) Small.db).1 = .ok [cert] ∧ Small.db.faults = [] ∧
    (∀ row ∈ Small.db.relations, row.relationType = 0) ∧
    (∀ t ∈ cert.chain[0]?, ∀ f ∈ Small.db.rootFactor t.issuedFor, cert.chain.length ≤ 16 - f + 1) ∧
    Small.db.relations.length + renewed.chain.length + 16 < 2 ^ 32 ∧
    (TrustGraph.getAllCerts (pk 2) (s 2500) (TrustGraph.add renewed (s 950) Small.db).2).1 = .ok [renewed] ∧
    (TrustGraph.weight (pk 2) (s 2500) Small.db).1 = .ok 0 := by decide +kernel

theorem renews : Spec.Renews cert renewed (s 950) where
  keys := by decide +kernel
  valid k t h := by
    rcases Spec.edge_pair.mp h with ⟨rfl, rfl⟩ | ⟨rfl, rfl⟩ <;> decide +kernel
  live := by unfold Spec.Live; decide +kernel
  whole := by unfold Trust.WholeSeconds; decide +kernel
  newer i t t' h h' := by
    right
    rcases i with _ | _ | i
    · cases h; cases h'; decide
    · cases h; cases h'; decide
    · cases h

end StaysDemo

open StaysDemo in
/-- The hypotheses of C121, first part. -/
example : Reachable Small.db ∧ TrustGraph.getAllCerts (pk 2) (s 10) Small.db = (.ok [cert], (TrustGraph.getAllCerts (pk 2) (s 10) Small.db).2) ∧
    (∀ t ∈ cert.chain, Spec.Live t (s 990)) ∧ Later (Spec.Sustains cert.keys (s 990)) Small.db (Op.runAll sustains Small.db) ∧
    Later (Spec.Spares cert.keys (s 990)) Small.db (Op.runAll spares Small.db) :=
  ⟨Small.reachable, CarryDemo.pair facts.1, live, .runAll _ sustains_ok _, .runAll _ spares_ok _⟩

open StaysDemo in
/-- The hypotheses of C121, renewal. -/
example : Reachable Small.db ∧ Small.db.NoFaults ∧ (TrustGraph.getAllCerts (pk 2) (s 950) Small.db).1 = .ok [cert] ∧ Spec.WithinLimit Small.db cert ∧
    Spec.Unrevoked (Small.db.snapshot (s 950)) cert.chain ∧ Spec.Renews cert renewed (s 950) ∧
    Small.db.relations.length + renewed.chain.length + 16 < 2 ^ 32 ∧ ∀ t ∈ renewed.chain, Spec.Live t (s 2500) := by
  obtain ⟨h1, h2, h3, h4, h5, -⟩ := renewed_facts
  refine ⟨Small.reachable, h2, h1, fun t f ht hf => h4 t ht f hf, ?_, renews, h5, by unfold Spec.Live; decide +kernel⟩
  rintro i j a b - - - ⟨r, hr, -⟩
  exact absurd (h3 _ hr.2) (by unfold Sqlite.toRow; simp [revocationType])

end TG
