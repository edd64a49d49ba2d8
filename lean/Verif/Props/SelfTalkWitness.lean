/-
C141: examples in the toy environment.
-/
import Verif.Props.SelfTalk
import Verif.Props.DistanceWitness
import Verif.Props.ChainLengthWitness

namespace TG
open TG.Toy Circles
set_option maxRecDepth 100000
set_option synthInstance.maxSize 1024

namespace SelfTalkDemo

/-- Key 3 trusts itself, key 4 revokes itself, and somebody asks. -/
def talk : List Op := [.addTrust (trust 3 3 1000 3) (pk 3) (s 5), .revoke (revocation 4 4 6), .weight (pk 4) (s 7)]

theorem selfTalk : ∀ op ∈ talk, Spec.SelfTalk db (s 10) op := by
  have h : db.rootFactor (pk 3) = none ∧ db.rootFactor (pk 4) = none := by decide +kernel
  intro op ho
  simp only [talk, List.mem_cons, List.not_mem_nil, or_false] at ho
  rcases ho with rfl | rfl | rfl
  · refine ⟨fun q hq => ?_, fun k n e => (nomatch e), fun t e => by cases e; decide⟩
    have := hq.1
    simp only [Op.offers, List.mem_singleton] at this
    subst this
    exact ⟨rfl, h.1⟩
  · refine ⟨fun q hq => ?_, fun k n e => (nomatch e), fun t e => (nomatch e)⟩
    have := hq.1
    simp only [Op.offers, List.mem_singleton] at this
    subst this
    exact ⟨rfl, h.2⟩
  · refine ⟨fun q hq => ?_, fun k n e => (nomatch e), fun t e => by cases e; decide⟩
    exact (nomatch hq.1)

end SelfTalkDemo
open SelfTalkDemo

/-- C141: the hypotheses hold for these calls, and two more relations are stored. -/
example : Later (Spec.SelfTalk db (s 10)) db (Op.runAll talk db) := .runAll _ selfTalk _

example : (Op.runAll talk db).relations.length = 9 ∧
    [1, 2, 3, 4, 5].map (fun n => (TrustGraph.weight (pk n) (s 10) (Op.runAll talk db)).1) = [.ok 256, .ok 128, .ok 128, .ok 64, .ok 0] := by decide +kernel

/-- C141: key 4 now has a certificate that visits key 3 twice, beside the shorter one. -/
example : (TrustGraph.getAllCerts (pk 4) (s 10) (Op.runAll talk db)).1 = .ok [⟨[trust 1 1 1000 1, trust 1 3 1000 1, trust 3 4 1000 1]⟩,
    ⟨[trust 1 1 1000 1, trust 1 2 1000 1, trust 2 3 1000 1, trust 3 4 1000 1]⟩, ⟨[trust 1 1 1000 1, trust 1 3 1000 1, trust 3 3 1000 3, trust 3 4 1000 1]⟩,
    ⟨[trust 1 1 1000 1, trust 1 2 1000 1, trust 2 3 1000 1, trust 3 3 1000 3, trust 3 4 1000 1]⟩] := by decide +kernel

/-- C141: what a root says about itself does matter. -/
example : (TrustGraph.weight (pk 4) (s 10) (Op.runAll [.revoke (revocation 1 1 6)] db)).1 = .ok 0 := by decide +kernel

end TG
