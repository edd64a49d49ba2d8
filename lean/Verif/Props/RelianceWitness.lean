/-
C144: examples in the toy environment.
-/
import Verif.Props.Reliance
import Verif.Props.ServiceUpstreamWitness

namespace TG.RelianceDemo
open TG.Toy TG.ServiceDemo TG.ServiceRunDemo TG.SpeechDemo TG.ServiceLibraryDemo TG.ServiceUpstreamDemo TG.Spec

set_option maxRecDepth 100000
set_option synthInstance.maxSize 1024

/-- Root 1 trusts key 2 until 50, and key 3, which trusts key 2. -/
def ops : List Op := [.setRoot (pk 1) 8, .addTrust (trust 1 1 1000 1) (pk 1) (s 2), .addTrust (trust 1 2 50 1) (pk 1) (s 2), .addTrust (trust 1 3 1000 1) (pk 1) (s 2),
  .addTrust (trust 3 2 200 1) (pk 3) (s 2)]

def db : Db := Op.runAll ops ⟨[], [], []⟩

/-- Key 2 trusts key 7, and somebody asks. -/
def later : List Op := [.addTrust (trust 2 7 1000 3) (pk 2) (s 20), .weight (pk 7) (s 55)]

def three (k : PublicKey) : Prop := k = pk 1 ∨ k = pk 2 ∨ k = pk 3

theorem issuers : ∀ row ∈ db.relations, row.issuedBy = keyText (pk 1) ∨ row.issuedBy = keyText (pk 2) ∨ row.issuedBy = keyText (pk 3) := by
  decide +kernel

theorem closed : Spec.Closed (db.snapshot (s 10)) three := by
  intro a t h _
  exact (issuers _ h.1.2).imp keyText_inj (Or.imp keyText_inj keyText_inj)

theorem downstream : ∀ op ∈ later, Spec.Downstream three (s 60) op := by
  intro op ho
  simp only [later, List.mem_cons, List.not_mem_nil, or_false] at ho
  rcases ho with rfl | rfl
  · refine ⟨fun q hq => ?_, fun k n e => (nomatch e), fun t e => by cases e; decide⟩
    have := hq.1
    simp only [Op.offers, List.mem_singleton] at this
    subst this
    show ¬ (_ ∨ _ ∨ _)
    decide
  · exact ⟨fun q hq => (nomatch hq.1), fun k n e => (nomatch e), fun t e => by cases e; decide⟩

/-- C144: the hypotheses hold. -/
example : Reachable db ∧ Spec.Closed (db.snapshot (s 10)) three ∧ Later (Spec.Downstream three (s 60)) db (Op.runAll later db) ∧ three (pk 2) :=
  ⟨Reachable.init.runAll _, closed, .runAll _ downstream _, .inr (.inl rfl)⟩

/-- C144: at 60 the shorter certificate of key 2 has expired, and its weight is halved; that of key 3 is the same. -/
example : (TrustGraph.getAllCerts (pk 2) (s 10) db).1 =
      .ok [⟨[trust 1 1 1000 1, trust 1 2 50 1]⟩, ⟨[trust 1 1 1000 1, trust 1 3 1000 1, trust 3 2 200 1]⟩] ∧
    (TrustGraph.getAllCerts (pk 2) (s 60) (Op.runAll later db)).1 = .ok [⟨[trust 1 1 1000 1, trust 1 3 1000 1, trust 3 2 200 1]⟩] ∧
    (TrustGraph.weight (pk 2) (s 10) db).1 = .ok 128 ∧ (TrustGraph.weight (pk 2) (s 60) (Op.runAll later db)).1 = .ok 64 ∧
    (TrustGraph.weight (pk 3) (s 10) db).1 = .ok 128 ∧ (TrustGraph.weight (pk 3) (s 60) (Op.runAll later db)).1 = .ok 128 := by
  decide +kernel

/-! ### Through the service -/

theorem asked2 : ((weigh 2 1500).2.exported (weigh 2 1500).1 (after below ((ask 2 10).2.exported (ask 2 10).1 (after setup first)).2)).1 = .ok ⟨true, none, .weight 0 (peer 2)⟩ := by
  decide +kernel

/-- C144 applies to the run: key 2 had the weight 512 (`weighed`), and after the expiry of its certificate none. -/
example : ∃ tr i f, ServiceRun False tr i f ∧ ∃ w, (⟨true, none, .weight 0 (peer 2)⟩ : Res Payload).payload = .weight w (peer 2) ∧
    (0 < w ↔ ∃ d ∈ [cert], ∀ x ∈ d.chain, (1500 : UInt64) < x.expiresAt) := by
  obtain ⟨i, f, h⟩ := ran2 setup below (ask 2 10) (weigh 2 1500) asked.1 asked2
  refine ⟨_, i, f, h, (C144_service (S := fun k => k = pk 1 ∨ k = pk 2) h (by decide +kernel) rfl rfl rfl (t := 10) (T := 1500) (by decide) (by decide)
    (names_toPeerId rfl (pk 2)) (.inr rfl) before ?_).2 rfl fun h => notRoots.1 (only h)⟩
  exact fun op ho => ⟨(between ho).1, (between ho).2.1, fun u hu => UInt64.le_trans ((between ho).2.2 u hu) (show (20 : UInt64) ≤ 1500 by decide)⟩

end TG.RelianceDemo
