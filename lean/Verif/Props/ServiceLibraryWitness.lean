/-
C125-C127: concrete runs of the service.
-/
import Verif.Props.ServiceLibrary
import Verif.Props.SpeechWitness

namespace TG.ServiceLibraryDemo
open TG.Toy TG.ServiceDemo TG.ServiceRunDemo TG.SpeechDemo TG.Spec

set_option maxRecDepth 100000
set_option synthInstance.maxSize 1024

theorem events_append (a b : List (CallParams × Call)) (i : Instance) : events (a ++ b) i = events a i ++ events b (after a i) := by
  induction a generalizing i with
  | nil => rfl
  | cons p a ih => exact congrArg _ (ih _)

/-- A run with two calls singled out. -/
theorem ran2 (a m : List (CallParams × Call)) (q q' : CallParams × Call) {r r' : Res Payload} (hr : (q.2.exported q.1 (after a first)).1 = .ok r)
    (hr' : (q'.2.exported q'.1 (after m (q.2.exported q.1 (after a first)).2)).1 = .ok r') :
    ∃ i f, ServiceRun False (trace a ++ .call q.1 q.2 (.ok r) :: (events m (q.2.exported q.1 (after a first)).2 ++ .call q'.1 q'.2 (.ok r') :: [])) i f := by
  obtain ⟨f, h⟩ := ran (a ++ q :: (m ++ [q']))
  refine ⟨some (after (a ++ q :: (m ++ [q'])) first), f, ?_⟩
  have e : trace (a ++ q :: (m ++ [q'])) =
      trace a ++ .call q.1 q.2 (.ok r) :: (events m (q.2.exported q.1 (after a first)).2 ++ .call q'.1 q'.2 (.ok r') :: []) := by
    obtain ⟨cp, c⟩ := q
    obtain ⟨cp', c'⟩ := q'
    unfold trace
    rw [events_append, events, events_append, events, events, hr, hr']
    simp
  rw [← e]
  exact h

theorem made {m : List (CallParams × Call)} {i : Instance} {op : Op} (h : Made (events m i) op) : ∃ p ∈ m, Means p.1 p.2 op := by
  obtain ⟨cp, c, o, he, -, hm⟩ := h
  exact ⟨_, mem_events he, hm⟩

theorem made_trace {m : List (CallParams × Call)} {op : Op} (h : Made (trace m) op) : ∃ p ∈ m, Means p.1 p.2 op := by
  obtain ⟨cp, c, o, he, -, hm⟩ := h
  exact ⟨_, mem_trace he, hm⟩

/-- A call that hands over a trust of a key. -/
def add (t : Trust) (k : PublicKey) (now : UInt64) : CallParams × Call := (timed 2, .addTrust (Dto.ofTrust t) k.toPeerId.toBase58 now)

theorem add_means {t : Trust} {k : PublicKey} {now : UInt64} {op : Op} (hw : t.WholeSeconds) (h : Means (add t k now).1 (add t k now).2 op) :
    op = .addTrust t k (.ofSecs now) := by
  cases h with
  | addTrust ht hk =>
    cases ht.unique (isTrust t hw)
    cases hk.unique (names_toPeerId rfl k)
    rfl

/-- The owner sets the root 1, which trusts 2 and 5; 5 trusts 6. -/
def setup : List (CallParams × Call) :=
  [(owner, .setRoot (peer 1) 10), add (trust 1 1 1000 1) (pk 1) 10, add (trust 1 2 1000 1) (pk 1) 10, add (trust 1 5 1000 1) (pk 1) 10,
   add (trust 5 6 1000 1) (pk 5) 10]

/-! ### C125 -/

/-- Key 2 trusts key 7, and a stranger trusts another one. -/
def meanwhile : List (CallParams × Call) := [add (trust 2 7 1000 3) (pk 2) 15, add (trust 9 8 1000 3) (pk 9) 16]

def ask (n : Nat) (t : UInt64) : CallParams × Call := (timed 1, .getAllCerts (peer n) t)

def cert : CertDto := ⟨[Dto.ofTrust (trust 1 1 1000 1), Dto.ofTrust (trust 1 2 1000 1)]⟩

theorem asked : ((ask 2 10).2.exported (ask 2 10).1 (after setup first)).1 = .ok ⟨true, none, .certs [cert]⟩ ∧
    ((ask 2 20).2.exported (ask 2 20).1 (after meanwhile ((ask 2 10).2.exported (ask 2 10).1 (after setup first)).2)).1 = .ok ⟨true, none, .certs [cert]⟩ := by
  decide +kernel

theorem on_cert {k : PublicKey} (h : On cert k) : k = pk 1 ∨ k = pk 2 := by
  obtain ⟨x, hx, hk⟩ := h
  simp only [cert, List.mem_cons, List.not_mem_nil, or_false] at hx
  rcases hx with rfl | rfl
  · exact .inl (hk.unique (names_toPeerId rfl (pk 1)))
  · exact .inr (hk.unique (names_toPeerId rfl (pk 2)))

theorem meanwhile_made {i : Instance} {op : Op} (h : Made (events meanwhile i) op) :
    op = .addTrust (trust 2 7 1000 3) (pk 2) (.ofSecs 15) ∨ op = .addTrust (trust 9 8 1000 3) (pk 9) (.ofSecs 16) := by
  obtain ⟨p, hp, hm⟩ := made h
  simp only [meanwhile, List.mem_cons, List.not_mem_nil, or_false] at hp
  rcases hp with rfl | rfl
  · exact .inl (add_means ⟨rfl, rfl⟩ hm)
  · exact .inr (add_means ⟨rfl, rfl⟩ hm)

theorem different : pk 7 ≠ pk 1 ∧ pk 7 ≠ pk 2 ∧ pk 9 ≠ pk 1 ∧ pk 9 ≠ pk 2 ∧ pk 5 ≠ pk 1 := by decide +kernel

/-- C125 applies to the run: the certificate is returned again. -/
example : ∃ tr i f, ServiceRun False tr i f ∧ ∃ ds', (⟨true, none, .certs [cert]⟩ : Res Payload).payload = .certs ds' ∧ cert ∈ ds' := by
  obtain ⟨i, f, h⟩ := ran2 setup meanwhile (ask 2 10) (ask 2 20) asked.1 asked.2
  refine ⟨_, i, f, h, (C125_stays rfl h (by decide +kernel) rfl (.head _) (T := 20) (by decide) ?_ ?_ rfl).1 rfl ?_⟩
  · decide +kernel
  · intro op u ho hu
    rcases meanwhile_made ho with rfl | rfl <;> cases hu <;> decide
  · rintro op q ho ⟨hq, -⟩ ⟨h1, h2⟩
    rcases meanwhile_made ho with rfl | rfl
    · rw [Op.offers, List.mem_singleton] at hq
      subst hq
      rcases on_cert h2 with h | h
      · exact different.1 h
      · exact different.2.1 h
    · rw [Op.offers, List.mem_singleton] at hq
      subst hq
      rcases on_cert h1 with h | h
      · exact different.2.2.1 h
      · exact different.2.2.2.1 h

/-! ### C126 -/

/-- Root 1 revokes key 5. -/
def revoked : List (CallParams × Call) := setup ++ [(timed 1, .revoke (Dto.ofRevocation (revocation 1 5 5)) 10)]

def export5 : CallParams × Call := (timed 1, .exportRevocations (peer 5))

/-- The old trust is handed over again, and key 5 trusts key 7. -/
def attempts : List (CallParams × Call) := [add (trust 1 5 1000 1) (pk 1) 15, add (trust 5 7 1000 3) (pk 5) 16, ask 5 17, ask 6 18]

def weigh (n : Nat) (t : UInt64) : CallParams × Call := (timed 1, .getWeight (peer n) t)

theorem exported5 : (export5.2.exported export5.1 (after revoked first)).1 = .ok ⟨true, none, .revocations [Dto.ofRevocation (revocation 1 5 5)]⟩ ∧
    ((weigh 5 20).2.exported (weigh 5 20).1 (after attempts (export5.2.exported export5.1 (after revoked first)).2)).1 = .ok ⟨true, none, .weight 0 (peer 5)⟩ ∧
    (events attempts (export5.2.exported export5.1 (after revoked first)).2).map seen =
      [some (true, none, some 512), some (true, none, some 0), some (true, none, none), some (true, none, none)] ∧
    ((weigh 5 20).2.exported (weigh 5 20).1 (after setup first)).1 = .ok ⟨true, none, .weight 512 (peer 5)⟩ := by
  decide +kernel

/-- The key that a call wants as a root. -/
def rootArg : Call → Option Str
  | .setRoot p _ => some p
  | _ => none

theorem isRevocation (r : Revocation) (h : r.revokedAt.Whole) : IsRevocation (Dto.ofRevocation r) r :=
  ⟨names_toPeerId rfl _, names_toPeerId rfl _, ⟨Base58.decode_encode _, rfl⟩, whole h⟩

theorem only_root {a m : List (CallParams × Call)} {i : Instance} {cp : CallParams} {c : Call} {o : Outcome Empty (Res Payload)} {k : PublicKey}
    (ha : ∀ x ∈ a ++ (cp, c) :: m, rootArg x.2 = none ∨ rootArg x.2 = some (peer 1))
    (h : OwnerSet (trace a ++ .call cp c o :: events m i) k) : k = pk 1 := by
  obtain ⟨cp', q, n, o', he, -, hk⟩ := h
  have hx : (cp', Call.setRoot q n) ∈ a ++ (cp, c) :: m := by
    rcases List.mem_append.mp he with he | he
    · exact List.mem_append_left _ (mem_trace he)
    · refine List.mem_append_right _ ?_
      rcases List.mem_cons.mp he with he | he
      · cases he
        exact .head _
      · exact .tail _ (mem_events he)
  have e : q = peer 1 := (ha _ hx).elim (fun h => by cases h) fun h => Option.some.inj h
  subst e
  exact hk.unique (names_toPeerId rfl (pk 1))

theorem attempts_made {i : Instance} {t : UInt64} {op : Op} {q : TrustRelation} (h : Made (events (attempts ++ [weigh 5 t]) i) op) (hq : op.Submits q) :
    q = .auth ⟨trust 1 5 1000 1, pk 1⟩ ∨ q = .auth ⟨trust 5 7 1000 3, pk 5⟩ := by
  obtain ⟨p, hp, hm⟩ := made h
  simp only [attempts, List.cons_append, List.nil_append, List.mem_cons, List.not_mem_nil, or_false] at hp
  rcases hp with rfl | rfl | rfl | rfl | rfl
  · cases add_means (by exact ⟨rfl, rfl⟩) hm
    exact .inl (List.mem_singleton.mp hq.1)
  · cases add_means (by exact ⟨rfl, rfl⟩) hm
    exact .inr (List.mem_singleton.mp hq.1)
  · cases hm
    cases hq.1
  · cases hm
    cases hq.1
  · cases hm
    cases hq.1

/-- C126 applies to the run: key 5, of weight 512 before, has weight 0. -/
example : ∃ tr i f, ServiceRun False tr i f ∧ Event.call (timed 1) (.getWeight (peer 5) 20) (.ok ⟨true, none, .weight 0 (peer 5)⟩) ∈ tr ∧ (0 : Nat) = 0 := by
  obtain ⟨f, h⟩ := ran (revoked ++ export5 :: (attempts ++ [weigh 5 20]))
  have e : trace (revoked ++ export5 :: (attempts ++ [weigh 5 20])) = trace revoked ++ .call export5.1 export5.2
      (.ok ⟨true, none, .revocations [Dto.ofRevocation (revocation 1 5 5)]⟩) ::
        events (attempts ++ [weigh 5 20]) (export5.2.exported export5.1 (after revoked first)).2 := by
    unfold trace
    rw [events_append, show export5 = (export5.1, export5.2) from rfl, events, exported5.1]
    simp
  rw [e] at h
  have hmem : Event.call (timed 1) (.getWeight (peer 5) 20) (.ok ⟨true, none, .weight 0 (peer 5)⟩) ∈
      events (attempts ++ [weigh 5 20]) (export5.2.exported export5.1 (after revoked first)).2 := by
    rw [events_append]
    refine List.mem_append_right _ ?_
    rw [show weigh 5 20 = ((weigh 5 20).1, (weigh 5 20).2) from rfl, events, exported5.2.1]
    exact .head _
  refine ⟨_, _, f, h, List.mem_append_right _ (.tail _ hmem),
    (C126_shut_out (K := pk 5) rfl h (by decide +kernel) (names_toPeerId rfl (pk 5)) rfl ?_ ?_ hmem).1 0 _ rfl (names_toPeerId rfl (pk 5))⟩
  · intro k hk
    have hk := only_root (by decide +kernel) hk
    subst hk
    exact ⟨different.2.2.2.2.symm, _, .head _, names_toPeerId rfl (pk 1)⟩
  · intro op a x ho hq hf hx hn
    cases List.mem_singleton.mp hx
    rcases attempts_made ho hq with e | e
    · cases e
      decide
    · cases e
      exact absurd hf (by decide +kernel)

/-! ### C127 -/

theorem weighed : ((weigh 2 10).2.exported (weigh 2 10).1 (after setup first)).1 = .ok ⟨true, none, .weight 512 (peer 2)⟩ := by
  decide +kernel

/-- Key 2 trusts itself and the root. -/
def selfPraise : List (CallParams × Call) := [add (trust 2 2 2000 3) (pk 2) 15, add (trust 2 1 2000 3) (pk 2) 16]

theorem weighed2 : ((weigh 2 20).2.exported (weigh 2 20).1 (after selfPraise ((weigh 2 10).2.exported (weigh 2 10).1 (after setup first)).2)).1 =
    .ok ⟨true, none, .weight 512 (peer 2)⟩ := by
  decide +kernel

/-- C127 applies to the run. -/
example : ∃ tr i f, ServiceRun False tr i f ∧ 512 ≤ 512 := by
  obtain ⟨i, f, h⟩ := ran2 setup selfPraise (weigh 2 10) (weigh 2 20) weighed weighed2
  refine ⟨_, i, f, h, (C127_own_weight h (by decide +kernel) (names_toPeerId rfl (pk 2)) rfl rfl rfl rfl (by decide) (by decide) ?_).1⟩
  intro op ho
  obtain ⟨p, hp, hm⟩ := made ho
  simp only [selfPraise, List.mem_cons, List.not_mem_nil, or_false] at hp
  rcases hp with rfl | rfl
  all_goals
    cases add_means (by exact ⟨rfl, rfl⟩) hm
    refine ⟨⟨fun q hq => ?_, fun _ _ e => by cases e⟩, fun u hu => by cases hu; decide⟩
    cases List.mem_singleton.mp hq.1
    rfl

/-- Key 9, whom nobody trusts, trusts key 8 and revokes key 2. -/
def strangers : List (CallParams × Call) := [add (trust 9 8 2000 3) (pk 9) 15, (timed 1, .revoke (Dto.ofRevocation (revocation 9 2 5)) 16)]

theorem weighed3 : ((weigh 2 20).2.exported (weigh 2 20).1 (after strangers ((weigh 2 10).2.exported (weigh 2 10).1 (after setup first)).2)).1 =
    .ok ⟨true, none, .weight 512 (peer 2)⟩ := by
  decide +kernel

/-- C127, strangers, applies to the run. -/
example : ∃ tr i f, ServiceRun False tr i f ∧ 512 ≤ 512 := by
  obtain ⟨i, f, h⟩ := ran2 setup strangers (weigh 2 10) (weigh 2 20) weighed weighed3
  refine ⟨_, i, f, h, ((C127_strangers (S := fun k => k = pk 9 ∨ k = pk 8) h (by decide +kernel) rfl rfl (t := 10) (T := 20) (by decide) (by decide) ?_ ?_ ?_).1
    rfl rfl _ _ rfl rfl).1⟩
  · rintro k ⟨cp, p, n, o, he, -, hk⟩
    have e : p = peer 1 := ((show ∀ x ∈ setup, rootArg x.2 = none ∨ rootArg x.2 = some (peer 1) by decide +kernel) _ (mem_trace he)).elim
      (fun h => by cases h) fun h => Option.some.inj h
    subst e
    cases hk.unique (names_toPeerId rfl (pk 1))
    decide +kernel
  · intro op a ho hq hS
    obtain ⟨p, hp, hm⟩ := made_trace ho
    simp only [setup, List.mem_cons, List.not_mem_nil, or_false] at hp
    rcases hp with rfl | rfl | rfl | rfl | rfl
    · cases hm
      cases hq.1
    all_goals
      cases add_means (by exact ⟨rfl, rfl⟩) hm
      cases List.mem_singleton.mp hq.1
      exact absurd hS (by decide +kernel)
  · intro op ho
    obtain ⟨p, hp, hm⟩ := made ho
    simp only [strangers, List.mem_cons, List.not_mem_nil, or_false] at hp
    rcases hp with rfl | rfl
    · cases add_means (by exact ⟨rfl, rfl⟩) hm
      refine ⟨⟨fun q hq => ?_, fun _ _ e => by cases e⟩, fun u hu => by cases hu; decide⟩
      cases List.mem_singleton.mp hq.1
      exact .inl rfl
    · cases hm with
      | revoke hx =>
        cases hx.unique (isRevocation (revocation 9 2 5) rfl)
        refine ⟨⟨fun q hq => ?_, fun _ _ e => by cases e⟩, fun u hu => by cases hu⟩
        cases List.mem_singleton.mp hq.1
        exact .inl rfl

end TG.ServiceLibraryDemo
