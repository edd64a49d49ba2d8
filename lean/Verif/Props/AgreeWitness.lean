/-
C136: two concrete services.
-/
import Verif.Props.Agree
import Verif.Props.ServiceLibraryWitness

namespace TG.AgreeDemo
open TG.Toy TG.ServiceDemo TG.ServiceRunDemo TG.SpeechDemo TG.Spec

set_option maxRecDepth 100000
set_option synthInstance.maxSize 1024

/-- Calls that tell the service something, and a question. -/
inductive Item where
  | root (k : PublicKey) (n : UInt32)
  | trust (t : Trust) (a : PublicKey) (now : UInt64)
  | revocation (r : Revocation) (now : UInt64)
  | weigh (k : PublicKey) (now : UInt64)

def Item.call : Item → CallParams × Call
  | .root k n => (owner, .setRoot k.toPeerId.toBase58 n)
  | .trust t a now => (timed 2, .addTrust (Dto.ofTrust t) a.toPeerId.toBase58 now)
  | .revocation r now => (timed 1, .revoke (Dto.ofRevocation r) now)
  | .weigh k now => (timed 1, .getWeight k.toPeerId.toBase58 now)

def Item.message : Item → Option TrustRelation
  | .trust t a _ => some (.auth ⟨t, a⟩)
  | .revocation r _ => some (.revocation r)
  | _ => none

def Item.Whole : Item → Prop
  | .trust t _ _ => t.WholeSeconds
  | .revocation r _ => r.revokedAt.Whole
  | _ => True

/-- The call was answered with success, and not with the weight 0. -/
def good (e : Event) : Bool := match seen e with
  | some (true, none, w) => decide (w ≠ some 0)
  | _ => false

theorem happened {cp : CallParams} {c : Call} {cs : List (CallParams × Call)} {i : Instance} (h : (cp, c) ∈ cs) : ∃ o, Event.call cp c o ∈ events cs i := by
  induction cs generalizing i with
  | nil => cases h
  | cons p cs ih =>
    rcases List.mem_cons.mp h with rfl | h
    · exact ⟨_, .head _⟩
    · obtain ⟨o, ho⟩ := ih (i := (p.2.exported p.1 i).2) h
      exact ⟨o, .tail _ ho⟩

theorem good_ok {cp : CallParams} {c : Call} {o : Outcome Empty (Res Payload)} (h : good (.call cp c o) = true) :
    ∃ r, o = .ok r ∧ r.success = true ∧ r.payload ≠ .newWeight 0 := by
  rcases o with ⟨s, e, p⟩ | x | _ | _
  · refine ⟨_, rfl, ?_, ?_⟩
    · cases s
      · cases h
      · rfl
    · rintro rfl
      cases s <;> cases e <;> cases h
  all_goals cases h

theorem isRevocation (r : Revocation) (h : r.revokedAt.Whole) : IsRevocation (Dto.ofRevocation r) r :=
  ⟨names_toPeerId rfl _, names_toPeerId rfl _, ⟨Base58.decode_encode _, rfl⟩, whole h⟩

variable {l : List Item}

theorem took_iff (hw : ∀ x ∈ l, x.Whole) (hg : (events (l.map Item.call) first).all good = true) {m : TrustRelation} :
    Took (trace (l.map Item.call)) m ↔ ∃ x ∈ l, x.message = some m := by
  constructor
  · intro h
    cases h with
    | trust h1 _ _ h4 h5 =>
      obtain ⟨x, hx, e⟩ := List.mem_map.mp (mem_trace h1)
      cases x with
      | trust t a now =>
        cases e
        exact ⟨_, hx, by rw [h4.unique (isTrust t (hw _ hx)), h5.unique (names_toPeerId rfl a)]; rfl⟩
      | root => cases e
      | revocation => cases e
      | weigh => cases e
    | revocation h1 _ h3 =>
      obtain ⟨x, hx, e⟩ := List.mem_map.mp (mem_trace h1)
      cases x with
      | revocation r now =>
        cases e
        exact ⟨_, hx, by rw [h3.unique (isRevocation r (hw _ hx))]; rfl⟩
      | root => cases e
      | trust => cases e
      | weigh => cases e
  · rintro ⟨x, hx, e⟩
    obtain ⟨o, ho⟩ := happened (i := first) (List.mem_map_of_mem (f := Item.call) hx)
    obtain ⟨r, rfl, h1, h2⟩ := good_ok (List.all_eq_true.mp hg _ ho)
    have ho := List.mem_append_right [Event.start true] ho
    cases x with
    | trust t a now => cases e; exact .trust ho h1 h2 (isTrust t (hw _ hx)) (names_toPeerId rfl a)
    | revocation q now => cases e; exact .revocation ho h1 (isRevocation q (hw _ hx))
    | root => cases e
    | weigh => cases e

theorem tookRoot_iff (hg : (events (l.map Item.call) first).all good = true) {k : PublicKey} {n : Nat} :
    TookRoot (trace (l.map Item.call)) k n ↔ ∃ m, Item.root k m ∈ l ∧ n = m.toNat := by
  constructor
  · rintro ⟨cp, p, m, r, h, -, hk, rfl⟩
    obtain ⟨x, hx, e⟩ := List.mem_map.mp (mem_trace h)
    cases x with
    | root k' m' =>
      cases e
      exact ⟨m, hk.unique (names_toPeerId rfl k') ▸ hx, rfl⟩
    | trust => cases e
    | revocation => cases e
    | weigh => cases e
  · rintro ⟨m, hx, rfl⟩
    obtain ⟨o, ho⟩ := happened (i := first) (List.mem_map_of_mem (f := Item.call) hx)
    obtain ⟨r, rfl, h1, -⟩ := good_ok (List.all_eq_true.mp hg _ ho)
    exact ⟨_, _, _, _, List.mem_append_right [Event.start true] ho, h1, names_toPeerId rfl k, rfl⟩

def Item.now : Item → Option UInt64
  | .trust _ _ now => some now
  | .weigh _ now => some now
  | _ => none

theorem asOf {now : Dur} (h : AsOf (trace (l.map Item.call)) now) : ∃ x ∈ l, ∃ t ∈ x.now, now = .ofSecs t := by
  obtain ⟨cp, c, o, op, h, hm, ht⟩ := h
  obtain ⟨x, hx, e⟩ := List.mem_map.mp (mem_trace h)
  refine ⟨x, hx, ?_⟩
  cases x <;> cases e <;> cases hm <;> cases ht <;> exact ⟨_, rfl, rfl⟩

theorem noCertificates : NoCertificates (trace (l.map Item.call)) := by
  intro cp c o h
  obtain ⟨x, -, e⟩ := List.mem_map.mp (mem_trace h)
  cases x <;> cases e <;> simp

/-- The root 1 trusts 2 and revokes 5. -/
def told : List Item :=
  [.root (pk 1) 10, .trust (trust 1 1 1000 1) (pk 1) 10, .trust (trust 1 2 1000 1) (pk 1) 11, .revocation (revocation 1 5 5) 13]

/-- Another service hears this in a different order, and some of it twice. -/
def told' : List Item :=
  [.root (pk 1) 10, .revocation (revocation 1 5 5) 20, .trust (trust 1 2 1000 1) (pk 1) 21, .trust (trust 1 1 1000 1) (pk 1) 22,
   .trust (trust 1 2 1000 1) (pk 1) 23]

def ask : CallParams × Call := (Item.weigh (pk 2) 30).call

theorem facts : (events (told.map Item.call) first).all good = true ∧
    (ask.2.exported ask.1 (after (told.map Item.call) first)).1 = .ok ⟨true, none, .weight 512 (peer 2)⟩ := by decide +kernel

theorem facts' : (events (told'.map Item.call) first).all good = true ∧
    (ask.2.exported ask.1 (after (told'.map Item.call) first)).1 = .ok ⟨true, none, .weight 512 (peer 2)⟩ := by decide +kernel

theorem apart : pk 1 ≠ pk 2 ∧ pk 1 ≠ pk 5 ∧ pk 2 ≠ pk 5 := by decide +kernel

theorem whole_told : ∀ x ∈ told, x.Whole := by
  intro x hx
  simp only [told, List.mem_cons, List.not_mem_nil, or_false] at hx
  rcases hx with rfl | rfl | rfl | rfl
  · trivial
  · exact ⟨rfl, rfl⟩
  · exact ⟨rfl, rfl⟩
  · exact (rfl : _ = _)

theorem whole_told' : ∀ x ∈ told', x.Whole := by
  intro x hx
  simp only [told', List.mem_cons, List.not_mem_nil, or_false] at hx
  rcases hx with rfl | rfl | rfl | rfl | rfl
  · trivial
  · exact (rfl : _ = _)
  · exact ⟨rfl, rfl⟩
  · exact ⟨rfl, rfl⟩
  · exact ⟨rfl, rfl⟩

/-- What both have heard. -/
def messages : List TrustRelation := [.auth ⟨trust 1 1 1000 1, pk 1⟩, .auth ⟨trust 1 2 1000 1, pk 1⟩, .revocation (revocation 1 5 5)]

theorem told_messages (m : TrustRelation) : (∃ x ∈ told, x.message = some m) ↔ m ∈ messages := by
  simp only [told, messages, List.mem_cons, List.not_mem_nil, or_false, exists_eq_or_imp, exists_eq_left, Item.message, Option.some.injEq, reduceCtorEq, false_or, eq_comm (b := m)]

theorem told'_messages (m : TrustRelation) : (∃ x ∈ told', x.message = some m) ↔ m ∈ messages := by
  simp only [told', messages, List.mem_cons, List.not_mem_nil, or_false, exists_eq_or_imp, exists_eq_left, Item.message, Option.some.injEq, reduceCtorEq, false_or, eq_comm (b := m)]
  constructor
  · rintro (h | h | h | h)
    · exact .inr (.inr h)
    · exact .inr (.inl h)
    · exact .inl h
    · exact .inr (.inl h)
  · rintro (h | h | h)
    · exact .inr (.inr (.inl h))
    · exact .inr (.inl h)
    · exact .inl h

theorem runs {l : List Item} {p : CallParams × Call} {r : Res Payload} (h : (p.2.exported p.1 (after (l.map Item.call) first)).1 = .ok r) :
    ∃ i f, ServiceRun False (trace (l.map Item.call) ++ [.call p.1 p.2 (.ok r)]) i f := by
  obtain ⟨f, hf⟩ := ran (l.map Item.call)
  have := hf.call p.1 p.2
  rw [h] at this
  exact ⟨_, _, this⟩

/-- C136 applies to the two services: they say the same about key 2. -/
example : ∃ tr tr' i i' f f', ServiceRun False (tr ++ [.call ask.1 ask.2 (.ok ⟨true, none, .weight 512 (peer 2)⟩)]) i f ∧
    ServiceRun False (tr' ++ [.call ask.1 ask.2 (.ok ⟨true, none, .weight 512 (peer 2)⟩)]) i' f' ∧ tr ≠ tr' ∧
    SameReply ask.1 ask.2 ⟨true, none, .weight 512 (peer 2)⟩ ⟨true, none, .weight 512 (peer 2)⟩ := by
  obtain ⟨i, f, h⟩ := runs facts.2
  obtain ⟨i', f', h'⟩ := runs facts'.2
  have e : ∀ m, Took (trace (told.map Item.call)) m ↔ m ∈ messages := fun m => (took_iff whole_told facts.1).trans (told_messages m)
  have e' : ∀ m, Took (trace (told'.map Item.call)) m ↔ m ∈ messages := fun m => (took_iff whole_told' facts'.1).trans (told'_messages m)
  have hr : ∀ k n, TookRoot (trace (told.map Item.call)) k n ↔ k = pk 1 ∧ n = 10 := fun k n => by
    rw [tookRoot_iff facts.1]
    simp only [told, List.mem_cons, List.not_mem_nil, or_false, reduceCtorEq, Item.root.injEq]
    exact ⟨fun ⟨m, h, h2⟩ => ⟨h.1, h2.trans (h.2 ▸ rfl)⟩, fun h => ⟨10, ⟨h.1, rfl⟩, h.2⟩⟩
  have hr' : ∀ k n, TookRoot (trace (told'.map Item.call)) k n ↔ k = pk 1 ∧ n = 10 := fun k n => by
    rw [tookRoot_iff facts'.1]
    simp only [told', List.mem_cons, List.not_mem_nil, or_false, reduceCtorEq, Item.root.injEq]
    exact ⟨fun ⟨m, h, h2⟩ => ⟨h.1, h2.trans (h.2 ▸ rfl)⟩, fun h => ⟨10, ⟨h.1, rfl⟩, h.2⟩⟩
  refine ⟨_, _, i, i', f, f', h, h', ?_, (C136_agree h h' (by decide +kernel) (by decide +kernel) (fun m => (e m).trans (e' m).symm) (fun k n => (hr k n).trans (hr' k n).symm)
    (fun k n n' h1 h2 => ((hr k n).mp h1).2.trans ((hr k n').mp h2).2.symm) ?_ ?_ ⟨noCertificates, noCertificates⟩ rfl ?_ rfl (by simp)).2⟩
  · intro h
    have := congrArg List.length h
    simp [trace, events, told, told'] at this
  · intro q m hq hm hp _
    rw [e] at hq hm
    simp only [messages, List.mem_cons, List.not_mem_nil, or_false] at hq hm
    obtain ⟨a1, a2, a3⟩ := apart
    rcases hq with rfl | rfl | rfl <;> rcases hm with rfl | rfl | rfl
    · rfl
    · exact absurd hp.1 a1
    · exact absurd hp.1 a2
    · exact absurd hp.1.symm a1
    · rfl
    · exact absurd hp.1 a3
    · exact absurd hp.1.symm a2
    · exact absurd hp.1.symm a3
    · rfl
  · intro now hnow a ha
    rw [e] at ha
    have ht : ∃ t : UInt64, now = .ofSecs t ∧ t ∈ [10, 11, 21, 22, 23] := by
      rcases hnow with h | h
      · obtain ⟨x, hx, t, ht, rfl⟩ := asOf h
        refine ⟨t, rfl, ?_⟩
        simp only [told, List.mem_cons, List.not_mem_nil, or_false] at hx
        rcases hx with rfl | rfl | rfl | rfl <;> cases ht <;> decide
      · obtain ⟨x, hx, t, ht, rfl⟩ := asOf h
        refine ⟨t, rfl, ?_⟩
        simp only [told', List.mem_cons, List.not_mem_nil, or_false] at hx
        rcases hx with rfl | rfl | rfl | rfl | rfl <;> cases ht <;> decide
    obtain ⟨t, rfl, ht⟩ := ht
    have hexp : a.trust.expiresAt = s 1000 := by
      simp only [messages, List.mem_cons, List.not_mem_nil, or_false, TrustRelation.auth.injEq, reduceCtorEq] at ha
      rcases ha with rfl | rfl <;> rfl
    unfold Live
    rw [hexp]
    clear hnow
    revert t
    decide
  · exact ⟨fun _ _ h => (nomatch h), fun n hn => by cases hn; exact ⟨[], rfl⟩, fun _ _ _ h => (nomatch h), fun _ _ h => (nomatch h)⟩

end TG.AgreeDemo
