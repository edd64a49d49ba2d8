/-
C143: concrete runs of the service.
-/
import Verif.Props.ServiceUpstream
import Verif.Props.ServiceLibraryWitness

namespace TG.ServiceUpstreamDemo
open TG.Toy TG.ServiceDemo TG.ServiceRunDemo TG.SpeechDemo TG.ServiceLibraryDemo TG.Spec

set_option maxRecDepth 100000
set_option synthInstance.maxSize 1024

/-- Key 2 trusts key 7, key 5 revokes key 6, and the owner makes key 8 a root. -/
def below : List (CallParams × Call) := [add (trust 2 7 1000 3) (pk 2) 15, (timed 1, .revoke (Dto.ofRevocation (revocation 5 6 5)) 16), (owner, .setRoot (peer 8) 16)]

theorem weighedBelow : ((weigh 2 20).2.exported (weigh 2 20).1 (after below ((weigh 2 10).2.exported (weigh 2 10).1 (after setup first)).2)).1 =
    .ok ⟨true, none, .weight 512 (peer 2)⟩ := by
  decide +kernel

/-- Keys 1 and 2 are trusted by key 1 only. -/
theorem before (op : Op) (a : Auth) (ho : Made (trace setup) op) (hq : op.Submits (.auth a)) (hS : a.trust.issuedFor = pk 1 ∨ a.trust.issuedFor = pk 2) :
    a.issuedBy = pk 1 ∨ a.issuedBy = pk 2 := by
  obtain ⟨p, hp, hm⟩ := made_trace ho
  simp only [setup, List.mem_cons, List.not_mem_nil, or_false] at hp
  rcases hp with rfl | rfl | rfl | rfl | rfl
  · cases hm
    cases hq.1
  · cases add_means (by exact ⟨rfl, rfl⟩) hm
    cases List.mem_singleton.mp hq.1
    exact .inl rfl
  · cases add_means (by exact ⟨rfl, rfl⟩) hm
    cases List.mem_singleton.mp hq.1
    exact .inl rfl
  · cases add_means (by exact ⟨rfl, rfl⟩) hm
    cases List.mem_singleton.mp hq.1
    exact .inl rfl
  · cases add_means (by exact ⟨rfl, rfl⟩) hm
    cases List.mem_singleton.mp hq.1
    exact absurd hS (by decide +kernel)

/-- All this is about others. -/
theorem between {i : Instance} {op : Op} (ho : Made (events below i) op) : (∀ q, op.Submits q → ¬ (q.issuedFor = pk 1 ∨ q.issuedFor = pk 2)) ∧
    (∀ k n, op = .setRoot k n → ¬ (k = pk 1 ∨ k = pk 2)) ∧ ∀ u, op.time = some u → u.secs ≤ 20 := by
  obtain ⟨p, hp, hm⟩ := made ho
  simp only [below, List.mem_cons, List.not_mem_nil, or_false] at hp
  rcases hp with rfl | rfl | rfl
  · cases add_means (by exact ⟨rfl, rfl⟩) hm
    refine ⟨fun q hq => ?_, fun _ _ e => (by cases e), fun u hu => by cases hu; decide⟩
    cases List.mem_singleton.mp hq.1
    decide +kernel
  · cases hm with
    | revoke hx =>
      cases hx.unique (isRevocation (revocation 5 6 5) rfl)
      refine ⟨fun q hq => ?_, fun _ _ e => (by cases e), fun u hu => by cases hu⟩
      cases List.mem_singleton.mp hq.1
      decide +kernel
  · cases hm with
    | setRoot hk =>
      cases hk.unique (names_toPeerId rfl (pk 8))
      refine ⟨fun q hq => (by cases hq.1), fun k n e => ?_, fun u hu => by cases hu⟩
      cases e
      decide +kernel

/-- C143 applies to the run. -/
example : ∃ tr i f, ServiceRun False tr i f ∧ 512 ≤ 512 := by
  obtain ⟨i, f, h⟩ := ran2 setup below (weigh 2 10) (weigh 2 20) weighed weighedBelow
  exact ⟨_, i, f, h, ((C143_upstream (S := fun k => k = pk 1 ∨ k = pk 2) h (by decide +kernel) rfl rfl (t := 10) (T := 20) (by decide) (by decide)
    (names_toPeerId rfl (pk 2)) (.inr rfl) before fun op ho => between ho).1 rfl rfl _ _ rfl rfl).1⟩

/-- Key 2 trusts itself, and key 5 revokes itself. -/
def talk : List (CallParams × Call) := [add (trust 2 2 2000 3) (pk 2) 15, (timed 1, .revoke (Dto.ofRevocation (revocation 5 5 5)) 16)]

theorem weighed6 : ((weigh 6 10).2.exported (weigh 6 10).1 (after setup first)).1 = .ok ⟨true, none, .weight 256 (peer 6)⟩ ∧
    ((weigh 6 20).2.exported (weigh 6 20).1 (after talk ((weigh 6 10).2.exported (weigh 6 10).1 (after setup first)).2)).1 = .ok ⟨true, none, .weight 256 (peer 6)⟩ := by
  decide +kernel

/-- The owner has set key 1 as a root, and no other. -/
theorem only {k : PublicKey} (h : OwnerSet (trace setup) k) : k = pk 1 := by
  obtain ⟨cp, p, n, o, he, -, hk⟩ := h
  have e : p = peer 1 := ((show ∀ x ∈ setup, rootArg x.2 = none ∨ rootArg x.2 = some (peer 1) by decide +kernel) _ (mem_trace he)).elim
    (fun h => by cases h) fun h => Option.some.inj h
  subst e
  exact hk.unique (names_toPeerId rfl (pk 1))

theorem notRoots : pk 2 ≠ pk 1 ∧ pk 5 ≠ pk 1 := by decide +kernel

/-- C143, what keys say about themselves, applies to the run: key 6, trusted by key 5, keeps its weight. -/
example : ∃ tr i f, ServiceRun False tr i f ∧ 256 ≤ 256 := by
  obtain ⟨i, f, h⟩ := ran2 setup talk (weigh 6 10) (weigh 6 20) weighed6.1 weighed6.2
  refine ⟨_, i, f, h, (C143_self_talk h (by decide +kernel) rfl rfl rfl rfl (by decide) (by decide) ?_).1⟩
  intro op ho
  obtain ⟨p, hp, hm⟩ := made ho
  simp only [talk, List.mem_cons, List.not_mem_nil, or_false] at hp
  rcases hp with rfl | rfl
  · cases add_means (by exact ⟨rfl, rfl⟩) hm
    refine ⟨fun q hq => ?_, fun _ _ e => (by cases e), fun u hu => by cases hu; decide⟩
    cases List.mem_singleton.mp hq.1
    exact ⟨rfl, fun h => notRoots.1 (only h)⟩
  · cases hm with
    | revoke hx =>
      cases hx.unique (isRevocation (revocation 5 5 5) rfl)
      refine ⟨fun q hq => ?_, fun _ _ e => (by cases e), fun u hu => by cases hu⟩
      cases List.mem_singleton.mp hq.1
      exact ⟨rfl, fun h => notRoots.2 (only h)⟩

end TG.ServiceUpstreamDemo
