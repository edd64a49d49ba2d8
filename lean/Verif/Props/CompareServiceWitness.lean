/-
C97, C137, C139, C140 and C147 to C150: concrete runs of services.
-/
import Verif.Props.CompareService
import Verif.Props.DistanceService
import Verif.Props.ChangeService
import Verif.Props.CoherentService
import Verif.Props.ContainmentService
import Verif.Props.CutOffService
import Verif.Props.TakenService
import Verif.Props.AgreeWitness

namespace TG.ServicePairsDemo
open TG.Toy TG.ServiceDemo TG.ServiceRunDemo TG.SpeechDemo TG.AgreeDemo TG.Spec

set_option maxRecDepth 100000
set_option synthInstance.maxSize 1024

/-- The root 1 trusts 2, and 2 trusts 6. -/
def told : List Item :=
  [.root (pk 1) 10, .trust (trust 1 1 1000 1) (pk 1) 10, .trust (trust 1 2 1000 1) (pk 1) 11, .trust (trust 2 6 1000 1) (pk 2) 12]

def ask : CallParams × Call := (Item.weigh (pk 6) 30).call

/-- The states of the service: it has been told this, asked about key 2, told that key 1 has revoked key 2; or asked about key 7, told that key 2 trusts key 7. -/
def i0 : Instance := after (told.map Item.call) first
def ask2 : CallParams × Call := ServiceLibraryDemo.ask 2 30
def i1 : Instance := (ask2.2.exported ask2.1 i0).2
def revoke2 : CallParams × Call := (Item.revocation (revocation 1 2 5) 30).call
def i2 : Instance := (revoke2.2.exported revoke2.1 i1).2
def ask7 : CallParams × Call := ServiceLibraryDemo.ask 7 30
def j1 : Instance := (ask7.2.exported ask7.1 i0).2
def add7 : CallParams × Call := (Item.trust (trust 2 7 1000 3) (pk 2) 30).call
def j2 : Instance := (add7.2.exported add7.1 j1).2

/-- It is then asked about the certificates of key 2 through key 1, and about the weight of key 2. -/
def askFrom : CallParams × Call := (timed 2, .getAllCertsFrom (peer 2) (peer 1) 30)
def k2 : Instance := (askFrom.2.exported askFrom.1 i1).2
def l2 : Instance := (add7.2.exported add7.1 i1).2
def export2 : CallParams × Call := (timed 0, .exportRevocations (peer 2))
def weigh2 : CallParams × Call := (Item.weigh (pk 2) 30).call

def cert : CertDto := ⟨[Dto.ofTrust (trust 1 1 1000 1), Dto.ofTrust (trust 1 2 1000 1)]⟩
def cert7 : CertDto := ⟨[Dto.ofTrust (trust 1 1 1000 1), Dto.ofTrust (trust 1 2 1000 1), Dto.ofTrust (trust 2 7 1000 3)]⟩

theorem all : ((events (told.map Item.call) first).all good = true ∧ (ask.2.exported ask.1 i0).1 = .ok ⟨true, none, .weight 256 (peer 6)⟩) ∧
    ((ask2.2.exported ask2.1 i0).1 = .ok ⟨true, none, .certs [cert]⟩ ∧ (revoke2.2.exported revoke2.1 i1).1 = .ok ⟨true, none, .unit⟩ ∧
      (ask2.2.exported ask2.1 i2).1 = .ok ⟨true, none, .certs []⟩) ∧
    ((ask7.2.exported ask7.1 i0).1 = .ok ⟨true, none, .certs []⟩ ∧ (add7.2.exported add7.1 j1).1 = .ok ⟨true, none, .newWeight 256⟩ ∧
      (ask7.2.exported ask7.1 j2).1 = .ok ⟨true, none, .certs [cert7]⟩) ∧
    ((ask2.2.exported ask2.1 i0).1 = .ok ⟨true, none, .certs [cert]⟩ ∧ (askFrom.2.exported askFrom.1 i1).1 = .ok ⟨true, none, .certs [cert]⟩ ∧
      (weigh2.2.exported weigh2.1 k2).1 = .ok ⟨true, none, .weight 512 (peer 2)⟩) ∧
    ((ask2.2.exported ask2.1 i0).1 = .ok ⟨true, none, .certs [cert]⟩ ∧ (add7.2.exported add7.1 i1).1 = .ok ⟨true, none, .newWeight 256⟩ ∧
      (ask2.2.exported ask2.1 l2).1 = .ok ⟨true, none, .certs [cert]⟩) ∧
    (ask2.2.exported ask2.1 i0).1 = .ok ⟨true, none, .certs [cert]⟩ ∧ (revoke2.2.exported revoke2.1 i1).1 = .ok ⟨true, none, .unit⟩ ∧
      (export2.2.exported export2.1 i2).1 = .ok ⟨true, none, .revocations [Dto.ofRevocation (revocation 1 2 5)]⟩ := by decide +kernel

theorem facts : (events (told.map Item.call) first).all good = true ∧
    (ask.2.exported ask.1 (after (told.map Item.call) first)).1 = .ok ⟨true, none, .weight 256 (peer 6)⟩ := all.1

theorem apart : pk 1 ≠ pk 2 ∧ pk 1 ≠ pk 6 ∧ pk 2 ≠ pk 6 := by decide +kernel

theorem whole_told : ∀ x ∈ told, x.Whole := by
  intro x hx
  simp only [told, List.mem_cons, List.not_mem_nil, or_false] at hx
  rcases hx with rfl | rfl | rfl | rfl
  · trivial
  all_goals exact ⟨rfl, rfl⟩

/-- What the service has heard. -/
def messages : List TrustRelation := [.auth ⟨trust 1 1 1000 1, pk 1⟩, .auth ⟨trust 1 2 1000 1, pk 1⟩, .auth ⟨trust 2 6 1000 1, pk 2⟩]

theorem took (m : TrustRelation) : Took (trace (told.map Item.call)) m ↔ m ∈ messages := by
  rw [took_iff whole_told facts.1]
  simp only [told, messages, List.mem_cons, List.not_mem_nil, or_false, exists_eq_or_imp, exists_eq_left, Item.message, Option.some.injEq, reduceCtorEq, false_or, eq_comm (b := m)]

theorem made_told {op : Op} (h : Made (trace (told.map Item.call)) op) :
    op = .setRoot (pk 1) 10 ∨ op = .addTrust (trust 1 1 1000 1) (pk 1) (.ofSecs 10) ∨ op = .addTrust (trust 1 2 1000 1) (pk 1) (.ofSecs 11) ∨
      op = .addTrust (trust 2 6 1000 1) (pk 2) (.ofSecs 12) := by
  obtain ⟨p, hp, hm⟩ := ServiceLibraryDemo.made_trace h
  simp only [told, List.map_cons, List.map_nil, List.mem_cons, List.not_mem_nil, or_false] at hp
  rcases hp with rfl | rfl | rfl | rfl
  · cases hm with
    | setRoot hk =>
      cases hk.unique (names_toPeerId rfl (pk 1))
      exact .inl rfl
  · exact .inr (.inl (ServiceLibraryDemo.add_means ⟨rfl, rfl⟩ hm))
  · exact .inr (.inr (.inl (ServiceLibraryDemo.add_means ⟨rfl, rfl⟩ hm)))
  · exact .inr (.inr (.inr (ServiceLibraryDemo.add_means ⟨rfl, rfl⟩ hm)))

theorem submitted {op : Op} {q : TrustRelation} (h : Made (trace (told.map Item.call)) op) (hq : op.Submits q) : q ∈ messages := by
  obtain ⟨hq, -⟩ := hq
  rcases made_told h with rfl | rfl | rfl | rfl
  · cases hq
  all_goals
    rw [Op.offers, List.mem_singleton] at hq
    subst hq
    simp [messages]

theorem counts {a : Auth} (h : .auth a ∈ messages) : Took (trace (told.map Item.call)) (.auth a) ∧
    (∀ op u, Made (trace (told.map Item.call) ++ [.call ask.1 ask.2 (.ok ⟨true, none, .weight 256 (peer 6)⟩)]) op → op.time = some u → Live a.trust u) ∧
    ∀ op q, Made (trace (told.map Item.call)) op → op.Submits q → q.SamePair (.auth a) → q = .auth a := by
  refine ⟨(took _).2 h, fun op u ho hu => ?_, fun op q ho hq hp => ?_⟩
  · have h1000 : a.trust.expiresAt = .ofSecs 1000 := by
      simp only [messages, List.mem_cons, List.not_mem_nil, or_false, TrustRelation.auth.injEq] at h
      rcases h with rfl | rfl | rfl <;> rfl
    have hu : u.secs ≤ 30 := by
      obtain ⟨cp, c, o, he, ha, hm⟩ := ho
      rcases List.mem_append.mp he with he | he
      · rcases made_told ⟨cp, c, o, he, ha, hm⟩ with rfl | rfl | rfl | rfl <;> cases hu <;> decide
      · cases List.mem_singleton.mp he
        cases hm
        cases hu
        decide
    show asI64 u.secs < asI64 a.trust.expiresAt.secs
    rw [h1000]
    have := asI64_mono hu (by decide)
    exact lt_of_le_of_lt this (by decide)
  · have hq := submitted ho hq
    obtain ⟨a1, a2, a3⟩ := apart
    simp only [messages, List.mem_cons, List.not_mem_nil, or_false] at hq h
    rcases hq with rfl | rfl | rfl <;> rcases h with h | h | h <;> rw [h] at hp ⊢
    · exact absurd hp.1 a1
    · exact absurd hp.1 a2
    · exact absurd hp.1.symm a1
    · exact absurd hp.1 a3
    · exact absurd hp.1.symm a2
    · exact absurd hp.1.symm a3

/-- C139 applies to the service: two trusts away from a root of weight 1024, key 6 has weight 256. -/
example : ∃ tr i f, ServiceRun False (tr ++ [.call ask.1 ask.2 (.ok ⟨true, none, .weight 256 (peer 6)⟩)]) i f ∧ 2 ^ (min 16 10 - 1 - 1) ≤ 256 ∧
    ((∃ n, Made tr (.setRoot (pk 6) n) ∧ 256 = 2 ^ min 16 n) ∨
    ∃ e, LedBy (fun k e => ∃ n, Made tr (.setRoot k n) ∧ e = min 16 n) (fun a => (∃ op, Made tr op ∧ op.Submits (.auth a)) ∧ Live a.trust (.ofSecs 30)) (pk 6) e ∧
      256 = 2 ^ e) := by
  obtain ⟨i, f, h⟩ := runs facts.2
  refine ⟨_, i, f, h, (C139_service_at_least h (by decide +kernel) (names_toPeerId rfl (pk 6)) rfl rfl ?_ ?_).2 _ ?_,
    C139_service_at_most h (by decide +kernel) (names_toPeerId rfl (pk 6)) rfl (by decide)⟩
  · intro k n n' h1 h2
    rw [tookRoot_iff facts.1] at h1
    obtain ⟨m, h1, rfl⟩ := h1
    simp only [told, List.mem_cons, List.not_mem_nil, or_false, reduceCtorEq, Item.root.injEq] at h1
    rcases made_told h2 with e | e | e | e <;> cases e
    rw [h1.2]
    rfl
  · intro op x ho hx
    have := submitted ho hx
    simp [messages] at this
  · refine .step (t := trust 2 6 1000 1) (.step (t := trust 1 2 1000 1) (.root (k := pk 1) (t := trust 1 1 1000 1) ⟨10, ?_, rfl⟩ rfl ?_) ?_) ?_
    · rw [tookRoot_iff facts.1]
      exact ⟨10, .head _, rfl⟩
    · exact counts (.head _)
    · exact counts (.tail _ (.head _))
    · exact counts (.tail _ (.tail _ (.head _)))

/-- A run that ends with three calls. -/
theorem ran3 {cs : List (CallParams × Call)} {x y z : CallParams × Call} {o o' o'' : Outcome Empty (Res Payload)}
    (h : (x.2.exported x.1 (after cs first)).1 = o ∧ (y.2.exported y.1 (x.2.exported x.1 (after cs first)).2).1 = o' ∧
      (z.2.exported z.1 (y.2.exported y.1 (x.2.exported x.1 (after cs first)).2).2).1 = o'') :
    ∃ i f, ServiceRun False (trace cs ++ .call x.1 x.2 o :: .call y.1 y.2 o' :: [.call z.1 z.2 o'']) i f := by
  obtain ⟨f, hf⟩ := ran cs
  have := ((hf.call x.1 x.2).call y.1 y.2).call z.1 z.2
  rw [List.append_assoc, List.append_assoc] at this
  exact ⟨_, _, h.1 ▸ h.2.1 ▸ h.2.2 ▸ this⟩

/-- C140 applies to a run: the revocation has taken the certificate of key 2. -/
example : ∃ tr i f, ServiceRun False tr i f ∧ CutOn (pk 1) (pk 2) cert := by
  obtain ⟨i, f, h⟩ := ran3 all.2.1
  refine ⟨_, i, f, h, ?_⟩
  have hr : IsRevocation (Dto.ofRevocation (revocation 1 2 5)) (revocation 1 2 5) := isRevocation _ rfl
  rcases C140_service_revoke rfl h rfl rfl rfl rfl rfl hr with h | h
  · by_contra hn
    exact absurd ((h cert).2 ⟨.head _, hn⟩) List.not_mem_nil
  · exact absurd ((h cert).2 (.head _)) List.not_mem_nil

/-- C140 applies to a run: the certificate that has come in contains the trust. -/
example : ∃ tr i f, ServiceRun False tr i f ∧ (TrustOn cert7 ⟨trust 2 7 1000 3, pk 2⟩ ∨
    ∃ (k l : Nat) (v z : TrustDto), k < l ∧ cert7.chain[k]? = some v ∧ cert7.chain[l]? = some z ∧ Names v.issuedFor (pk 2) ∧ Names z.issuedFor (pk 7)) := by
  obtain ⟨i, f, h⟩ := ran3 all.2.2.1
  refine ⟨_, i, f, h, ?_⟩
  rcases (C140_service_trust rfl h (by decide +kernel) rfl rfl rfl rfl rfl (isTrust (trust 2 7 1000 3) ⟨rfl, rfl⟩) (names_toPeerId rfl (pk 2)) (by decide) (by decide)).1
    cert7 (.head _) with h | h
  · cases h
  · exact h

/-- C137 applies to a run: the certificate of key 2 with key 1 on it, and the weight that comes from it. -/
example : ∃ tr i f, ServiceRun False tr i f ∧ (∃ x ∈ cert.chain, Names x.issuedFor (pk 1)) ∧ 0 < 512 := by
  obtain ⟨i, f, h⟩ := ran3 all.2.2.2.1
  refine ⟨_, i, f, h, ?_, ?_⟩
  · obtain ⟨ds, ds', e, e', -, hm⟩ := (C137_service (mid := []) (t := 30) rfl h (by decide +kernel) (by decide) rfl rfl (fun op ⟨_, _, _, he, _⟩ => by cases he)
      (names_toPeerId rfl (pk 2)) (names_toPeerId rfl (pk 1)) (.inl rfl)).1 rfl rfl
    cases e
    cases e'
    exact ((hm cert).1 (.head _)).2
  · obtain ⟨ds, w, e, e', hw, -⟩ := (C137_service (mid := [.call askFrom.1 askFrom.2 (.ok ⟨true, none, .certs [cert]⟩)]) (post := []) (t := 30) rfl h (by decide +kernel)
      (by decide) rfl rfl (fun op ⟨cp, c, o, he, _, hm⟩ => by
        cases List.mem_singleton.mp he
        cases hm
        exact ⟨trivial, fun u hu => by cases hu; decide⟩)
      (names_toPeerId rfl (pk 2)) (names_toPeerId rfl (pk 1)) (.inl rfl)).2.2.1 rfl rfl
    cases e
    cases e'
    exact hw (by simp)

/-- C97 applies to a run: what key 2 signs does not touch the certificate of key 2. -/
example : ∃ tr i f, ServiceRun False tr i f ∧ ∀ x ∈ cert.chain, 30 < x.expiresAt := by
  obtain ⟨i, f, h⟩ := ran3 all.2.2.2.2.1
  refine ⟨_, i, f, h, ((C97_service (S := (· = pk 2)) (mid := [.call add7.1 add7.2 (.ok ⟨true, none, .newWeight 256⟩)]) (post := []) (T := 30) rfl h (by decide +kernel) rfl rfl rfl
    rfl (by decide) (by decide) ?_ cert ?_).1 (.head _)).2⟩
  · rintro op ⟨cp, c, o, he, -, hm⟩
    cases List.mem_singleton.mp he
    cases ServiceLibraryDemo.add_means (t := trust 2 7 1000 3) (k := pk 2) (now := 30) ⟨rfl, rfl⟩ hm
    refine ⟨fun q hq => ?_, fun k n e => (by cases e), fun u hu => by cases hu; decide⟩
    obtain ⟨hq, -⟩ := hq
    rw [Op.offers, List.mem_singleton] at hq
    subst hq
    rfl
  · intro x hx k hk e
    cases List.mem_singleton.mp (show x ∈ [Dto.ofTrust (trust 1 1 1000 1)] from hx)
    exact apart.1 ((hk.unique (names_toPeerId rfl (pk 1))).symm.trans e)

/-- What the second service has had before it is asked. -/
def trMore : List Event :=
  trace (told.map Item.call) ++ [.call ask2.1 ask2.2 (.ok ⟨true, none, .certs [cert]⟩), .call revoke2.1 revoke2.2 (.ok ⟨true, none, .unit⟩)]

/-- C147 applies to the two runs: the first service shows `cert` for key 2, the second does not. -/
example : ∃ tr tr' i i' f f', ServiceRun False tr i f ∧ ServiceRun False tr' i' f' ∧
    ((∃ y k, cert.chain[0]? = some y ∧ Names y.issuedFor k ∧ ∀ n, ¬ TookRoot trMore k n) ∨
    (∃ a, TrustOn cert a ∧ ¬ Took trMore (.auth a)) ∨
    (∃ a op q, TrustOn cert a ∧ Made trMore op ∧ op.Submits q ∧ q.SamePair (.auth a) ∧ q ≠ .auth a) ∨
    (∃ op x, Made trMore op ∧ op.Submits (.revocation x) ∧ On cert x.revokedBy ∧ On cert x.pk) ∨
    ∃ y ∈ cert.chain, ∃ op u, Made tr' op ∧ op.time = some u ∧ asI64 y.expiresAt ≤ asI64 u.secs) := by
  obtain ⟨i, f, h⟩ := runs all.2.1.1
  obtain ⟨i', f', h'⟩ := ran3 all.2.1
  have h2 : ServiceRun False (trMore ++ [.call ask2.1 ask2.2 (.ok ⟨true, none, .certs []⟩)]) i' f' := by
    unfold trMore
    rw [List.append_assoc]
    exact h'
  exact ⟨_, _, i, i', f, f', h, h2, C147_service rfl h (List.mem_append_right _ (.head _)) (by decide +kernel) rfl (List.mem_singleton_self _) h2 rfl rfl
    (List.not_mem_nil)⟩

theorem isRev : IsRevocation (Dto.ofRevocation (revocation 1 2 5)) (revocation 1 2 5) := isRevocation _ rfl

/-- The revocation of key 2 has been taken in, and nothing newer about the two keys has. -/
theorem taken : Took trMore (.revocation (revocation 1 2 5)) ∧ ∀ op q, Made trMore op → op.Submits q → q.SamePair (.revocation (revocation 1 2 5)) →
    q ≠ .revocation (revocation 1 2 5) → q.issuedAt.total < (revocation 1 2 5).revokedAt.total := by
  refine ⟨.revocation (List.mem_append_right _ (.tail _ (.head _))) rfl isRev, ?_⟩
  rintro op q ⟨cp, c, o, he, ha, hm⟩ hq hp hne
  rcases List.mem_append.mp he with he | he
  · have := submitted ⟨cp, c, o, he, ha, hm⟩ hq
    obtain ⟨a1, a2, a3⟩ := apart
    simp only [messages, List.mem_cons, List.not_mem_nil, or_false] at this
    rcases this with rfl | rfl | rfl
    · exact absurd hp.1 a1
    · decide
    · exact absurd hp.1.symm a3
  · simp only [List.mem_cons, List.not_mem_nil, or_false] at he
    rcases he with he | he <;> cases he <;> cases hm
    · cases hq.1
    · next hr' =>
      cases isRev.unique hr'
      exact absurd (List.mem_singleton.mp hq.1) hne

/-- After that, any one call. -/
theorem ranMore {z : CallParams × Call} {o : Outcome Empty (Res Payload)} (h : (z.2.exported z.1 i2).1 = o) :
    ∃ i f, ServiceRun False (trMore ++ [.call z.1 z.2 o]) i f := by
  obtain ⟨i, f, h⟩ := ran3 (x := ask2) (y := revoke2) (z := z) ⟨all.2.1.1, all.2.1.2.1, h⟩
  refine ⟨i, f, ?_⟩
  unfold trMore
  rw [List.append_assoc]
  exact h

/-- C148 applies to a run: the revocation is exported. -/
example : ∃ i f, ServiceRun False (trMore ++ [.call export2.1 export2.2 (.ok ⟨true, none, .revocations [Dto.ofRevocation (revocation 1 2 5)]⟩)]) i f ∧
    Dto.ofRevocation (revocation 1 2 5) ∈ [Dto.ofRevocation (revocation 1 2 5)] := by
  obtain ⟨i, f, h⟩ := ranMore (z := export2) all.2.2.2.2.2.2.2
  exact ⟨i, f, h, (C148_exported rfl h (names_toPeerId rfl (pk 2)) rfl rfl).2.2 (revocation 1 2 5) taken.1 rfl taken.2⟩

/-- C149 applies to a run: no certificates of key 2 come by way of key 1 any more, as there were before (`all`). -/
example {r : Res Payload} (h : (askFrom.2.exported askFrom.1 i2).1 = .ok r) : r.payload = .certs [] := by
  obtain ⟨i, f, h⟩ := ranMore h
  exact ((C149_cut_off rfl h (by decide +kernel) taken.1 taken.2).2.2 (peer 2) (peer 1) 30 (names_toPeerId rfl (pk 2)) (names_toPeerId rfl (pk 1)) apart.1.symm).1 rfl

/-- The chain from the root 1 to key 6 has been taken in. -/
theorem chain6 : TakenChain (trace (told.map Item.call)) 30 [trust 1 1 1000 1, trust 1 2 1000 1, trust 2 6 1000 1] := by
  have edge : ∀ (j : Nat) t s, [trust 1 1 1000 1, trust 1 2 1000 1, trust 2 6 1000 1][j]? = some t →
      [trust 1 1 1000 1, trust 1 2 1000 1, trust 2 6 1000 1][j - 1]? = some s → .auth ⟨t, s.issuedFor⟩ ∈ messages := by
    rintro (_ | _ | _ | j) t s ht hs
    · cases ht; cases hs; exact .head _
    · cases ht; cases hs; exact .tail _ (.head _)
    · cases ht; cases hs; exact .tail _ (.tail _ (.head _))
    · cases ht
  refine ⟨by decide, ?_, ?_, fun j t s ht hs => (counts (edge j t s ht hs)).1, fun j t s ht hs op q ho hq hp hne => absurd ((counts (edge j t s ht hs)).2.2 op q ho hq hp) hne, ?_, ?_⟩
  · rintro t ⟨⟩
    refine ⟨10, ?_⟩
    rw [tookRoot_iff facts.1]
    exact ⟨10, .head _, rfl⟩
  · exact List.nodup_cons.mpr ⟨by simp [apart, show (trust 1 1 1000 1).issuedFor = pk 1 from rfl, show (trust 1 2 1000 1).issuedFor = pk 2 from rfl,
      show (trust 2 6 1000 1).issuedFor = pk 6 from rfl], List.nodup_cons.mpr ⟨by simp [apart, show (trust 1 2 1000 1).issuedFor = pk 2 from rfl,
      show (trust 2 6 1000 1).issuedFor = pk 6 from rfl], by simp⟩⟩
  · intro j k a b _ _ _ op x ho hx
    have := submitted ho hx
    simp [messages] at this
  · intro t ht
    simp only [List.mem_cons, List.not_mem_nil, or_false] at ht
    rcases ht with rfl | rfl | rfl <;> decide

/-- C150 applies to a run: key 6 has a weight. -/
example : ∃ i f, ServiceRun False (trace (told.map Item.call) ++ [.call ask.1 ask.2 (.ok ⟨true, none, .weight 256 (peer 6)⟩)]) i f ∧ 0 < 256 := by
  obtain ⟨i, f, h⟩ := runs facts.2
  refine ⟨i, f, h, ?_⟩
  have htime : ∀ op u, Made (trace (told.map Item.call)) op → op.time = some u → u.secs ≤ 30 := by
    intro op u ho hu
    rcases made_told ho with rfl | rfl | rfl | rfl <;> cases hu <;> decide
  obtain ⟨w, e, hw⟩ := (C150_certified h (by decide +kernel) rfl chain6 htime (names_toPeerId rfl (pk 6)) (by rintro t ⟨⟩; rfl)).2.2.1 rfl
  cases e
  exact hw

end TG.ServicePairsDemo
