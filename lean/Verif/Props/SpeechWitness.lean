/-
C124: concrete runs of the service, an honest one, and one in which somebody speaks for a Secp256k1 key (finding F1).
-/
import Verif.Props.Speech
import Verif.Props.ServiceMachineWitness

namespace TG

set_option maxRecDepth 100000
set_option synthInstance.maxSize 1024

namespace SpeechDemo
open TG.Toy TG.ServiceDemo TG.ServiceRunDemo TG.Spec

/-- The events after a start. -/
abbrev trace (cs : List (CallParams × Call)) : List Event := [.start true] ++ events cs first

theorem mem_events {cp : CallParams} {c : Call} {o : Outcome Empty (Res Payload)} {cs : List (CallParams × Call)} {i : Instance}
    (h : Event.call cp c o ∈ events cs i) : (cp, c) ∈ cs := by
  induction cs generalizing i with
  | nil => cases h
  | cons p cs ih =>
    rw [events] at h
    rcases List.mem_cons.mp h with h | h
    · cases h; exact .head _
    · exact .tail _ (ih h)

theorem mem_trace {cp : CallParams} {c : Call} {o : Outcome Empty (Res Payload)} {cs : List (CallParams × Call)}
    (h : Event.call cp c o ∈ trace cs) : (cp, c) ∈ cs := by
  rcases List.mem_append.mp h with h | h
  · simp at h
  · exact mem_events h

theorem ran (cs : List (CallParams × Call)) : ∃ f, ServiceRun False (trace cs) (some (after cs first)) f := by
  have h0 : ServiceRun False _ _ _ := ServiceRun.new.start
  rw [startModule_ok facts.1.1] at h0
  exact run h0 cs

theorem whole {d : Dur} (h : d.Whole) : d = .ofSecs d.secs := by
  obtain ⟨x, n⟩ := d
  cases (show n = 0 from h)
  rfl

theorem isTrust (t : Trust) (h : t.WholeSeconds) : IsTrust (Dto.ofTrust t) t := by
  refine ⟨names_toPeerId rfl _, ⟨Base58.decode_encode _, rfl⟩, ?_, ?_⟩
  · exact whole h.1
  · exact whole h.2

/-- What is handed over in a run in which only trusts are handed over. -/
theorem handed {cs : List (CallParams × Call)} {q : TrustRelation} (h : HandedOver (trace cs) q) {l : List (Trust × PublicKey)}
    (hl : ∀ p ∈ cs, p.2.offered = 0 ∨ ∃ t a ts, p.2 = .addTrust (Dto.ofTrust t) a.toPeerId.toBase58 ts ∧ t.WholeSeconds ∧ (t, a) ∈ l) :
    ∃ p ∈ l, q = .auth ⟨p.1, p.2⟩ := by
  obtain ⟨cp, c, o, op, he, hm, hq⟩ := h
  rcases hl _ (mem_trace he) with h0 | ⟨t, a, ts, rfl, hw, hmem⟩
  · have := hm.offers
    rw [h0] at this
    rw [List.eq_nil_of_length_eq_zero (Nat.le_zero.mp this)] at hq
    cases hq
  · cases hm with
    | addTrust ht ha =>
      cases ht.unique (isTrust t hw)
      cases ha.unique (names_toPeerId rfl a)
      rw [Op.offers, List.mem_singleton] at hq
      exact ⟨_, hmem, hq⟩

/-! ### An honest run -/

/-- The calls of the demo, in which key 9 tries to speak for key 1, and more: key 9 trusts key 8, and somebody asks. -/
def cs : List (CallParams × Call) :=
  calls ++ [(timed 2, .addTrust (Dto.ofTrust (trust 9 8 1000 1)) (peer 9) 10), (timed 1, .getWeight (peer 8) 10), (timed 1, .getAllCerts (peer 2) 10)]

def handedOver : List (Trust × PublicKey) := [(trust 1 1 1000 1, pk 1), (trust 1 2 1000 1, pk 1), (trust 9 2 1000 1, pk 1), (trust 9 8 1000 1, pk 9)]

/-- Key 1 trusts itself and key 2; key 2 says nothing. -/
def said (k : PublicKey) (s : Statement) : Prop := k = pk 1 ∧ (s = .trust (pk 1) 1000 1 ∨ s = .trust (pk 2) 1000 1)

/-- Everybody but keys 1 and 2. -/
def coalition (k : PublicKey) : Prop := k ≠ pk 1 ∧ k ≠ pk 2

theorem different : pk 1 ≠ pk 2 ∧ pk 9 ≠ pk 1 ∧ pk 9 ≠ pk 2 ∧ pk 8 ≠ pk 1 ∧ pk 8 ≠ pk 2 := by decide +kernel

theorem offers : ∀ p ∈ cs, p.2.offered = 0 ∨ ∃ t a ts, p.2 = .addTrust (Dto.ofTrust t) a.toPeerId.toBase58 ts ∧ t.WholeSeconds ∧ (t, a) ∈ handedOver := by
  intro p hp
  simp only [cs, calls, List.cons_append, List.nil_append, List.mem_cons, List.not_mem_nil, or_false] at hp
  rcases hp with rfl | rfl | rfl | rfl | rfl | rfl | rfl | rfl | rfl | rfl
  · exact .inl rfl
  · exact .inl rfl
  · exact .inr ⟨trust 1 1 1000 1, pk 1, _, rfl, ⟨rfl, rfl⟩, by simp [handedOver]⟩
  · exact .inr ⟨trust 1 2 1000 1, pk 1, _, rfl, ⟨rfl, rfl⟩, by simp [handedOver]⟩
  · exact .inr ⟨trust 9 2 1000 1, pk 1, _, rfl, ⟨rfl, rfl⟩, by simp [handedOver]⟩
  · exact .inl rfl
  · exact .inl rfl
  · exact .inr ⟨trust 9 8 1000 1, pk 9, _, rfl, ⟨rfl, rfl⟩, by simp [handedOver]⟩
  · exact .inl rfl
  · exact .inl rfl

/-- Nobody breaks the scheme: key 9 has only its own signature to offer. -/
theorem unforged : Unforged said (fun k => ¬ coalition k) (trace cs) := by
  intro q hq hh ha
  obtain ⟨p, hp, rfl⟩ := handed hq offers
  simp only [handedOver, List.mem_cons, List.not_mem_nil, or_false] at hp
  rcases hp with rfl | rfl | rfl | rfl
  · exact ⟨_, ⟨rfl, .inl rfl⟩, rfl⟩
  · exact ⟨_, ⟨rfl, .inr rfl⟩, rfl⟩
  · exfalso
    revert ha
    show ¬ (Env.edVerify _ _ _ = true)
    decide +kernel
  · exact absurd ⟨different.2.1, different.2.2.1⟩ hh

theorem notSecp (k : PublicKey) (h : ¬ coalition k) : k.NotSecp := by
  by_cases h1 : k = pk 1
  · rw [h1]; trivial
  · by_cases h2 : k = pk 2
    · rw [h2]; trivial
    · exact absurd ⟨h1, h2⟩ h

/-- What is seen, and the certificates of key 2. -/
theorem seenHere : (events cs first).map seen =
    [some (true, none, none), some (false, some .notOwner, none), some (true, none, some 1024), some (true, none, some 512),
      some (false, some (.tgError (.trustVerificationError (.signatureError .ed25519))), some 0), some (true, none, some 512),
      some (false, some .invalidTimestampTetraplet, some 0), some (true, none, some 0), some (true, none, some 0), some (true, none, none)] ∧
    (events cs first).getLast?.map (fun | .call _ _ (.ok r) => r.payload | _ => .unit) =
      some (.certs [⟨[Dto.ofTrust (trust 1 1 1000 1), Dto.ofTrust (trust 1 2 1000 1)]⟩]) := by
  decide +kernel

/-- C124 applies to the run. -/
example : C124_conclusion (trace cs) said (fun k => ¬ coalition k) := by
  obtain ⟨f, h⟩ := ran cs
  exact C124_nobody_speaks_for_others_partial rfl h (by decide +kernel) unforged notSecp

theorem ownerSet {k : PublicKey} (h : OwnerSet (trace cs) k) : k = pk 1 := by
  obtain ⟨cp, p, n, o, he, ho, hn⟩ := h
  have := mem_trace he
  simp only [cs, calls, List.cons_append, List.nil_append, List.mem_cons, List.not_mem_nil, or_false, Prod.mk.injEq, reduceCtorEq, and_false,
    Call.setRoot.injEq] at this
  rcases this with ⟨rfl, rfl, rfl⟩ | ⟨rfl, rfl, rfl⟩
  · exact hn.unique (names_toPeerId rfl (pk 1))
  · exact absurd ho (by decide +kernel)

/-- The coalition of all keys but 1 and 2 has no weight. -/
example {cp : CallParams} {c : Call} {r : Res Payload} {x : Nat} (hm : Event.call cp c (.ok r) ∈ trace cs) (hp : r.payload = .weight x (peer 8)) : x = 0 := by
  obtain ⟨f, h⟩ := ran cs
  refine C124_coalition (said := said) (coalition := coalition) rfl h (by decide +kernel) unforged notSecp ?_ ?_ hm hp
    (k := pk 8) ⟨different.2.2.2.1, different.2.2.2.2⟩ (names_toPeerId rfl (pk 8))
  · exact fun k hk ho => hk.1 (ownerSet ho)
  · rintro a b e i - ⟨-, h | h⟩ ⟨h1, h2⟩
    · cases h; exact h1 rfl
    · cases h; exact h2 rfl

/-! ### Somebody speaks for a Secp256k1 key -/

/-- Secp256k1 key 1. -/
def sk : PublicKey := (skp 1).pub

/-- A trust with an invalid signature. -/
def bogus (k : PublicKey) : Trust := ⟨k, s 1000, .secp256k1 [0x30], s 1⟩

/-- The owner makes a Secp256k1 key a root, whose holder has never signed anything.  Key 9 hands over two trusts in its name, and asks for their own weight. -/
def forgery : List (CallParams × Call) :=
  [(owner, .setRoot sk.toPeerId.toBase58 10), (timed 2, .addTrust (Dto.ofTrust (bogus sk)) sk.toPeerId.toBase58 10),
   (timed 2, .addTrust (Dto.ofTrust (bogus (pk 9))) sk.toPeerId.toBase58 10), (timed 1, .getWeight (peer 9) 10)]

theorem forgerySeen : (events forgery first).getLast?.map (fun | .call _ _ (.ok r) => r.payload | _ => .unit) = some (.weight 512 (peer 9)) := by
  decide +kernel

theorem forged : Unforged (fun _ _ => False) (· = sk) (trace forgery) := by
  intro q hq hh ha
  obtain ⟨p, hp, rfl⟩ := handed (l := [(bogus sk, sk), (bogus (pk 9), sk)]) hq (by
    intro p hp
    simp only [forgery, List.mem_cons, List.not_mem_nil, or_false] at hp
    rcases hp with rfl | rfl | rfl | rfl
    · exact .inl rfl
    · exact .inr ⟨bogus sk, sk, _, rfl, ⟨rfl, rfl⟩, by simp⟩
    · exact .inr ⟨bogus (pk 9), sk, _, rfl, ⟨rfl, rfl⟩, by simp⟩
    · exact .inl rfl)
  exfalso
  simp only [List.mem_cons, List.not_mem_nil, or_false] at hp
  rcases hp with rfl | rfl
  · exact absurd ha.2 (by decide +kernel)
  · exact absurd ha.2 (by decide +kernel)

end SpeechDemo

open SpeechDemo Toy Spec in
/-- **C124 fails** (finding F1): the weight of a root whose key is a Secp256k1 key can be passed on by anybody. -/
theorem C124_fails : ¬ C124_statement := by
  intro h
  obtain ⟨f, hr⟩ := ran forgery
  have hc := h False _ _ _ (fun _ _ => False) (· = sk) rfl hr (by decide +kernel) forged
  have hm : ∃ cp c r, Event.call cp c (.ok r) ∈ trace forgery ∧ r.payload = .weight 512 (ServiceDemo.peer 9) := by
    obtain ⟨ev, he, hp⟩ := Option.map_eq_some_iff.mp forgerySeen
    have he := List.mem_of_getLast? he
    split at hp
    · exact ⟨_, _, _, List.mem_append_right _ he, hp⟩
    · cases hp
  obtain ⟨cp, c, r, hm, hp⟩ := hm
  obtain ⟨k, hk, hrec⟩ := hc.2.2 _ _ _ _ _ hm hp (by decide)
  cases hk.unique (names_toPeerId rfl (pk 9))
  have key : ∀ k, Recommended (fun _ _ => False) (· = sk) (trace forgery) k → k = sk := by
    intro k hk
    induction hk with
    | root ho =>
      obtain ⟨cp, p, n, o, he, ho, hn⟩ := ho
      have := mem_trace he
      simp only [forgery, List.mem_cons, List.not_mem_nil, or_false, Prod.mk.injEq, reduceCtorEq, and_false, Call.setRoot.injEq] at this
      obtain ⟨rfl, rfl, rfl⟩ := this
      exact hn.unique (names_toPeerId rfl sk)
    | next _ hs ih => exact (hs ih).elim
  exact absurd (key _ hrec) (by decide +kernel)

end TG
