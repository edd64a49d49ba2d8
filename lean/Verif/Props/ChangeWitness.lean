/-
C140: examples in the toy environment.
-/
import Verif.Props.Change
import Verif.Props.Coherent
import Verif.Props.DistanceWitness

namespace TG
open TG.Toy Circles
set_option maxRecDepth 100000
set_option synthInstance.maxSize 1024

namespace Cuts

/-- The two certificates of key 4, directly from root 1 to key 3 and over key 2. -/
def direct : Certificate := ⟨[trust 1 1 1000 1, trust 1 3 1000 1, trust 3 4 1000 1]⟩
def detour : Certificate := ⟨[trust 1 1 1000 1, trust 1 2 1000 1, trust 2 3 1000 1, trust 3 4 1000 1]⟩

/-- Root 1 revokes key 3; later it trusts key 3 again. -/
def revoked : Db := (TrustGraph.revoke (revocation 1 3 5) db).2
def pardoned : Db := (TrustGraph.addTrust (trust 1 3 1000 7) (pk 1) (s 8) revoked).2

def renewed : Certificate := ⟨[trust 1 1 1000 1, trust 1 3 1000 7, trust 3 4 1000 1]⟩

theorem facts : (TrustGraph.revoke (revocation 1 3 5) db).1 = .ok () ∧ (TrustGraph.addTrust (trust 1 3 1000 7) (pk 1) (s 8) revoked).1 = .ok 128 ∧
    (TrustGraph.getAllCerts (pk 4) (s 10) db).1 = .ok [direct, detour] ∧ (TrustGraph.getAllCerts (pk 4) (s 10) revoked).1 = .ok [detour] ∧
    (TrustGraph.getAllCerts (pk 4) (s 10) pardoned).1 = .ok [renewed, detour] ∧
    (TrustGraph.getAllCerts (pk 3) (s 10) revoked).1 = .ok [] ∧ revoked.relations.length = 7 := by decide +kernel

theorem reachable' : Reachable revoked := reachable.step (.revoke (revocation 1 3 5))

/-- The trust of root 1 in key 3 is older than the revocation. -/
theorem news : Spec.News db (.revocation (revocation 1 3 5)) := by
  intro q hq hp
  have hs : db.Stored (.auth ⟨trust 1 3 1000 1, pk 1⟩) := ⟨⟨rfl, rfl⟩, Circles.facts.2.2.2.2.2.1⟩
  obtain rfl := reachable.healthy.stored_unique hq hs hp.1 hp.2
  decide

end Cuts
open Cuts

/-- C140: a revocation that is news.  It cuts the certificate on which key 1 comes immediately before key 3, and leaves the one with key 2 in between (F2). -/
example : ∀ c, c ∈ [detour] ↔ c ∈ [direct, detour] ∧ ¬ Spec.Cut (pk 1) (pk 3) c := by
  have e : TrustGraph.revoke (revocation 1 3 5) db = (.ok (), revoked) := by unfold revoked; exact Outcome.pair_eq Cuts.facts.1
  have h := C140_revoke reachable e (Outcome.pair_eq Cuts.facts.2.2.1) (Outcome.pair_eq Cuts.facts.2.2.2.1)
  exact h.1 news

/-- C140: a trust that replaces a revocation.  The new certificate uses it. -/
example : ∀ c ∈ [renewed, detour], c ∈ [detour] ∨ Spec.Uses (pk 1) (trust 1 3 1000 7) c ∨ ((revoked.snapshot (s 10)).revoked (pk 1) (pk 3) ∧ Spec.Precedes (pk 1) (pk 3) c) := by
  have e : TrustGraph.addTrust (trust 1 3 1000 7) (pk 1) (s 8) revoked = (.ok 128, pardoned) := by unfold pardoned; exact Outcome.pair_eq Cuts.facts.2.1
  have hb : revoked.relations.length + 16 < 2 ^ 32 := by rw [Cuts.facts.2.2.2.2.2.2]; decide
  have h := C140_add_trust reachable' hb e
    (by decide : asI64 (s 8).secs ≤ asI64 (s 10).secs) (Outcome.pair_eq Cuts.facts.2.2.2.1) (Outcome.pair_eq Cuts.facts.2.2.2.2.1)
  exact h.1

/-- C140: a trust that expires earlier takes one of the two certificates with it. -/
example : (TrustGraph.getAllCerts (pk 4) (s 10) (Op.runAll [.addTrust (trust 1 2 50 2) (pk 1) (s 8)] db)).1 =
      .ok [direct, ⟨[trust 1 1 1000 1, trust 1 2 50 2, trust 2 3 1000 1, trust 3 4 1000 1]⟩] ∧
    (TrustGraph.getAllCerts (pk 4) (s 50) (Op.runAll [.addTrust (trust 1 2 50 2) (pk 1) (s 8)] db)).1 = .ok [direct] := by decide +kernel

end TG
