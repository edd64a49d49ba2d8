/-
C134: the order of updates and their repetition do not matter, as long as none is refused for lack of weight.
-/
import Verif.Props.SameContent
import Verif.Props.Gossip

namespace TG
variable [Env]

namespace Spec.World

/-- What `w` becomes by updates with messages of `S`: for each pair of keys the newest of them, if it is newer than what is known, and otherwise what is known. -/
structure Absorbs (S : TrustRelation → Prop) (w w' : Spec.World) : Prop where
  roots : w'.roots = w.roots
  pairs : ∀ a b, (w'.relation a b = w.relation a b ∧
      ∀ m, S m → m.issuedBy = a → m.issuedFor = b → ∃ q, w.relation a b = some q ∧ m.issuedAt.total ≤ q.issuedAt.total) ∨
    (∃ m, S m ∧ m.issuedBy = a ∧ m.issuedFor = b ∧ w'.relation a b = some m.trunc ∧ (∀ q, w.relation a b = some q → q.issuedAt.total < m.issuedAt.total) ∧
      ∀ m', S m' → m'.issuedBy = a → m'.issuedFor = b → m'.issuedAt.secs.toNat ≤ m.issuedAt.secs.toNat)

theorem Absorbs.refl (w : Spec.World) : Absorbs (fun _ => False) w w :=
  ⟨rfl, fun _ _ => .inl ⟨rfl, fun _ h => h.elim⟩⟩

omit [Env] in
theorem _root_.TG.Dur.total_lt_of_secs {d e : Dur} (h : d.secs.toNat < e.secs.toNat) : d.total < e.total := by
  have := d.nanos.isLt
  unfold Dur.total
  omega

theorem Absorbs.update {S : TrustRelation → Prop} {w w' : Spec.World} (h : Absorbs S w w') {m : TrustRelation}
    (hd : ∀ q, S q → q.SamePair m → q.issuedAt.secs = m.issuedAt.secs → q = m) :
    Absorbs (fun q => S q ∨ q = m) w (w'.update m) := by
  refine ⟨h.roots, fun a b => ?_⟩
  have hrel : (w'.update m).relation a b = if a = m.issuedBy ∧ b = m.issuedFor ∧ ∀ q, w'.relation a b = some q → q.issuedAt.total < m.issuedAt.total
      then some m.trunc else w'.relation a b := by unfold Spec.World.update; rfl
  rw [hrel]
  by_cases hp : a = m.issuedBy ∧ b = m.issuedFor
  · obtain ⟨rfl, rfl⟩ := hp
    rcases h.pairs m.issuedBy m.issuedFor with ⟨e, hle⟩ | ⟨m₀, hs, h1, h2, e, hlt, hmax⟩
    · split
      · next hc =>
        rw [e] at hc
        refine .inr ⟨m, .inr rfl, rfl, rfl, rfl, hc.2.2, ?_⟩
        rintro m' (hs | rfl) h1 h2
        · obtain ⟨q, hq, hl⟩ := hle m' hs h1 h2
          exact Dur.secs_le_of_total (Nat.le_of_lt (Nat.lt_of_le_of_lt hl (hc.2.2 q hq)))
        · exact Nat.le_refl _
      · next hc =>
        refine .inl ⟨e, ?_⟩
        rintro m' (hs | rfl) h1 h2
        · exact hle m' hs h1 h2
        · rw [e] at hc
          simp only [true_and, not_forall, Nat.not_lt] at hc
          obtain ⟨q, hq, hl⟩ := hc
          exact ⟨q, hq, hl⟩
    · have ht : m₀.trunc.issuedAt.secs = m₀.issuedAt.secs := by cases m₀ <;> rfl
      split
      · next hc =>
        have hlt' := Dur.secs_le_of_total (Nat.le_of_lt (hc.2.2 _ e))
        rw [ht] at hlt'
        refine .inr ⟨m, .inr rfl, rfl, rfl, rfl, fun q hq => ?_, ?_⟩
        · rcases Nat.lt_or_eq_of_le hlt' with hl | hl
          · exact Nat.lt_trans (hlt q hq) (Dur.total_lt_of_secs hl)
          · rw [← hd m₀ hs ⟨h2, h1⟩ (UInt64.toNat_inj.mp hl)]
            exact hlt q hq
        · rintro m' (hs | rfl) h1 h2
          · exact Nat.le_trans (hmax m' hs h1 h2) hlt'
          · exact Nat.le_refl _
      · next hc =>
        refine .inr ⟨m₀, .inl hs, h1, h2, e, hlt, ?_⟩
        rintro m' (hs | rfl) h1 h2
        · exact hmax m' hs h1 h2
        · simp only [true_and, not_forall, Nat.not_lt] at hc
          obtain ⟨q, hq, hl⟩ := hc
          rw [e] at hq
          cases hq
          exact ht ▸ Dur.secs_le_of_total hl
  · rw [if_neg (fun hc => hp ⟨hc.1, hc.2.1⟩)]
    rcases h.pairs a b with ⟨e, hle⟩ | ⟨m₀, hs, h1, h2, e, hlt, hmax⟩
    · refine .inl ⟨e, ?_⟩
      rintro m' (hs | rfl) h1 h2
      · exact hle m' hs h1 h2
      · exact absurd ⟨h1.symm, h2.symm⟩ hp
    · refine .inr ⟨m₀, .inl hs, h1, h2, e, hlt, ?_⟩
      rintro m' (hs | rfl) h1 h2
      · exact hmax m' hs h1 h2
      · exact absurd ⟨h1.symm, h2.symm⟩ hp

theorem Absorbs.congr {S S' : TrustRelation → Prop} {w w' : Spec.World} (h : Absorbs S w w') (hs : ∀ m, S m ↔ S' m) : Absorbs S' w w' := by
  have : S = S' := funext fun m => propext (hs m)
  exact this ▸ h

/-- The result is determined by the messages, if no two of them about the same pair of keys have the same date. -/
theorem Absorbs.unique {S : TrustRelation → Prop} {w w₁ w₂ : Spec.World} (h₁ : Absorbs S w w₁) (h₂ : Absorbs S w w₂)
    (hdiff : ∀ q r, S q → S r → q.SamePair r → q.issuedAt.secs = r.issuedAt.secs → q = r) : w₁ = w₂ := by
  have hrel : ∀ a b, w₁.relation a b = w₂.relation a b := by
    intro a b
    rcases h₁.pairs a b with ⟨e₁, l₁⟩ | ⟨m₁, s₁, f₁, g₁, e₁, lt₁, max₁⟩ <;> rcases h₂.pairs a b with ⟨e₂, l₂⟩ | ⟨m₂, s₂, f₂, g₂, e₂, lt₂, max₂⟩
    · rw [e₁, e₂]
    · obtain ⟨q, hq, hl⟩ := l₁ m₂ s₂ f₂ g₂
      exact absurd (lt₂ q hq) (Nat.not_lt.mpr hl)
    · obtain ⟨q, hq, hl⟩ := l₂ m₁ s₁ f₁ g₁
      exact absurd (lt₁ q hq) (Nat.not_lt.mpr hl)
    · have := max₁ m₂ s₂ f₂ g₂
      have := max₂ m₁ s₁ f₁ g₁
      rw [e₁, e₂, hdiff m₁ m₂ s₁ s₂ ⟨g₁.trans g₂.symm, f₁.trans f₂.symm⟩ (UInt64.toNat_inj.mp (by omega))]
  cases w₁; cases w₂
  have r₁ := h₁.roots
  have r₂ := h₂.roots
  dsimp only at r₁ r₂ hrel
  congr 1
  · rw [r₁, r₂]
  · exact funext fun a => funext fun b => hrel a b

theorem _root_.TG.TrustRelation.trunc_live {q : TrustRelation} {now : Dur} : q.LiveAt now ↔ q.trunc.LiveAt now := by
  refine ⟨fun h => ?_, TrustRelation.LiveAt.of_trunc⟩
  cases q with
  | auth a => rintro x ⟨⟩; exact h a rfl
  | revocation r => rintro x ⟨⟩

theorem collect_live {w : Spec.World} {now : Dur} (h : ∀ a b q, w.relation a b = some q → q.LiveAt now) : w.collect now = w :=
  Spec.World.ext' (fun _ => rfl) fun a b q => by
    rw [collect_relation]
    exact ⟨fun hq => hq.1, fun hq => ⟨hq, fun x e => h a b q hq x e⟩⟩

end Spec.World

/-- The call that tells the message, at the time given with it. -/
def Spec.tellAt (p : TrustRelation × Dur) : Op := p.1.tell p.2

/-- The message is accepted at the time given with it: it verifies. -/
def Spec.Accepted (p : TrustRelation × Dur) : Prop :=
  match p.1 with
  | .auth a => a.trust.verify a.issuedBy p.2 = .ok ()
  | .revocation r => r.verify = .ok ()

theorem Spec.tellAt_offers (p : TrustRelation × Dur) : (Spec.tellAt p).offers = [p.1] := by
  obtain ⟨m, now⟩ := p
  cases m <;> rfl

/-- What a list of such calls makes of the content. -/
theorem tell_absorbs {db₀ db : Db} (hr : Reachable db) (hf : db.NoFaults) {calls : List (TrustRelation × Dur)} {S : TrustRelation → Prop}
    (hn : db.relations.length + calls.length + 16 < 2 ^ 32) (hD : ∀ q r, (S q ∨ q ∈ calls.map (·.1)) → (S r ∨ r ∈ calls.map (·.1)) → q.SamePair r → q.issuedAt.secs = r.issuedAt.secs → q = r)
    (hS : ∀ p ∈ calls, ∀ m, ((∃ a b, db₀.world.relation a b = some m) ∨ S m ∨ m ∈ calls.map (·.1)) → m.LiveAt p.2)
    (hans : ∀ o ∈ Spec.answersOf (calls.map Spec.tellAt) db, o ≠ .ok (.weight 0))
    (h : Spec.World.Absorbs S db₀.world db.world) :
    Spec.World.Absorbs (fun m => S m ∨ ∃ p ∈ calls, Spec.Accepted p ∧ m = p.1) db₀.world (Op.runAll (calls.map Spec.tellAt) db).world := by
  induction calls generalizing db S with
  | nil => exact h.congr fun m => by simp
  | cons p calls ih =>
    rw [List.length_cons] at hn
    obtain ⟨hlen, hstep⟩ := (Spec.tellAt p).refines hr (by rw [Spec.tellAt_offers]; simp only [List.length_singleton]; omega)
    rw [Spec.tellAt_offers, List.length_singleton] at hlen
    have hstep := hstep.resolve_right fun h => h.1 hf
    have ha : ((Spec.tellAt p).call db).1 ≠ .ok (.weight 0) := hans _ (by rw [List.map_cons, Spec.answersOf]; exact List.mem_cons_self ..)
    have hcol : db.world.collect p.2 = db.world := Spec.World.collect_live fun a b q hq => by
      rcases h.pairs a b with ⟨e, -⟩ | ⟨m, hs, -, -, e, -⟩
      · exact hS p (List.mem_cons_self ..) q (.inl ⟨a, b, e ▸ hq⟩)
      · rw [hq] at e
        cases e
        exact fun x hx => (TrustRelation.trunc_live.mp (hS p (List.mem_cons_self ..) m (.inr (.inl hs)))) x hx
    have hm : ∀ q, S q → q.SamePair p.1 → q.issuedAt.secs = p.1.issuedAt.secs → q = p.1 := fun q hq => hD q p.1 (.inl hq) (.inr (List.mem_cons_self ..))
    have key : Spec.World.Absorbs (fun m => S m ∨ (Spec.Accepted p ∧ m = p.1)) db₀.world ((Spec.tellAt p).call db).2.world := by
      obtain ⟨m, now⟩ := p
      cases m with
      | auth a =>
        change db.world.Step (.addTrust a.trust a.issuedBy now) ((Op.addTrust a.trust a.issuedBy now).call db).1 ((Op.addTrust a.trust a.issuedBy now).call db).2.world at hstep
        change ((Op.addTrust a.trust a.issuedBy now).call db).1 ≠ _ at ha
        change Spec.World.Absorbs _ _ ((Op.addTrust a.trust a.issuedBy now).call db).2.world
        revert hstep ha
        generalize ((Op.addTrust a.trust a.issuedBy now).call db).1 = o
        generalize ((Op.addTrust a.trust a.issuedBy now).call db).2.world = w'
        intro hstep ha
        cases hstep with
        | addTrust hadd =>
          obtain ⟨hv, x, -, -, rfl⟩ := hadd
          rw [if_neg (fun h0 => ha (by rw [h0])), hcol]
          exact (h.update hm).congr fun m => or_congr_right ⟨fun e => ⟨hv, e⟩, fun e => e.2⟩
        | refuseTrust hv =>
          exact h.congr fun m => ⟨.inl, fun e => e.elim id fun e => nomatch hv.symm.trans (e.1 : a.trust.verify a.issuedBy now = .ok ())⟩
      | revocation r =>
        change db.world.Step (.revoke r) ((Op.revoke r).call db).1 ((Op.revoke r).call db).2.world at hstep
        change Spec.World.Absorbs _ _ ((Op.revoke r).call db).2.world
        revert hstep
        generalize ((Op.revoke r).call db).1 = o
        generalize ((Op.revoke r).call db).2.world = w'
        intro hstep
        cases hstep with
        | revoke hv => exact (h.update hm).congr fun m => or_congr_right ⟨fun e => ⟨hv, e⟩, fun e => e.2⟩
        | refuseRevocation hv =>
          exact h.congr fun m => ⟨.inl, fun e => e.elim id fun e => nomatch hv.symm.trans (e.1 : r.verify = .ok ())⟩
    have hmem : ∀ q, ((S q ∨ (Spec.Accepted p ∧ q = p.1)) ∨ q ∈ calls.map (·.1)) → S q ∨ q ∈ (p :: calls).map (·.1) := by
      rintro q ((h1 | h1) | h1)
      · exact .inl h1
      · exact .inr (by rw [h1.2]; exact List.mem_cons_self ..)
      · exact .inr (List.mem_cons_of_mem _ h1)
    have := ih (db := ((Spec.tellAt p).call db).2) ((Spec.tellAt p).call_state db ▸ hr.step _) ((Spec.tellAt p).call_failStop.noFaults hf) (by omega)
      (fun q r hq hr => hD q r (hmem q hq) (hmem r hr))
      (fun p' hp' m hm' => hS p' (List.mem_cons_of_mem _ hp') m (by
        rcases hm' with h1 | (h1 | h1) | h1
        · exact .inl h1
        · exact .inr (.inl h1)
        · exact .inr (.inr (by rw [h1.2]; exact List.mem_cons_self ..))
        · exact .inr (.inr (List.mem_cons_of_mem _ h1))))
      (fun o ho => hans o (by rw [List.map_cons, Spec.answersOf]; exact List.mem_cons_of_mem _ ho)) key
    rw [List.map_cons]
    rw [(Spec.tellAt p).call_state] at this
    refine Spec.World.Absorbs.congr (show Spec.World.Absorbs _ db₀.world (Op.runAll (Spec.tellAt p :: calls.map Spec.tellAt) db).world from this) fun m => ?_
    simp only [List.mem_cons, exists_eq_or_imp, or_assoc]

/-- **C134.**  Trusts and revocations told to the library in two ways, in different orders and with different repetitions, lead to the same content, and so to databases
that no later calls can tell apart (C133), if in both ways no `add_trust` answered 0, for lack of weight of the issuer.  Provided two messages about the same
pair of keys are dated in different seconds, and no trust expires meanwhile. -/
theorem C134_order {db : Db} (hr : Reachable db) (hf : db.NoFaults) {calls calls' : List (TrustRelation × Dur)} (hsame : ∀ p, p ∈ calls ↔ p ∈ calls')
    (hn : db.relations.length + calls.length + 16 < 2 ^ 32) (hn' : db.relations.length + calls'.length + 16 < 2 ^ 32)
    (hdiff : ∀ p ∈ calls, ∀ q ∈ calls, p.1.SamePair q.1 → p.1.issuedAt.secs = q.1.issuedAt.secs → p.1 = q.1)
    (hlive : ∀ p ∈ calls, ∀ a : Auth, (db.Stored (.auth a) ∨ .auth a ∈ calls.map (·.1)) → Spec.Live a.trust p.2)
    (hans : ∀ o ∈ Spec.answersOf (calls.map Spec.tellAt) db, o ≠ .ok (.weight 0))
    (hans' : ∀ o ∈ Spec.answersOf (calls'.map Spec.tellAt) db, o ≠ .ok (.weight 0)) :
    Spec.SameContent (Op.runAll (calls.map Spec.tellAt) db) (Op.runAll (calls'.map Spec.tellAt) db) := by
  have hmap : ∀ m, m ∈ calls'.map (·.1) → m ∈ calls.map (·.1) := by
    intro m hm
    obtain ⟨p, hp, rfl⟩ := List.mem_map.mp hm
    exact List.mem_map.mpr ⟨p, (hsame p).mpr hp, rfl⟩
  have hl : ∀ p ∈ calls, ∀ m : TrustRelation, ((∃ a b, db.world.relation a b = some m) ∨ False ∨ m ∈ calls.map (·.1)) → m.LiveAt p.2 := by
    rintro p hp m (⟨a, b, h⟩ | h | h) x rfl
    · exact hlive p hp x (.inl (hr.healthy.world_relation.mp h).1)
    · exact h.elim
    · exact hlive p hp x (.inr h)
  have hd : ∀ l : List TrustRelation, (∀ m ∈ l, m ∈ calls.map (·.1)) → ∀ q r, (False ∨ q ∈ l) → (False ∨ r ∈ l) → q.SamePair r →
      q.issuedAt.secs = r.issuedAt.secs → q = r := by
    rintro l hl q r (h | h) (h' | h')
    · exact h.elim
    · exact h.elim
    · exact h'.elim
    · obtain ⟨p, hp, rfl⟩ := List.mem_map.mp (hl _ h)
      obtain ⟨p', hp', rfl⟩ := List.mem_map.mp (hl _ h')
      exact hdiff p hp p' hp'
  have h₁ := tell_absorbs (db₀ := db) hr hf hn (hd _ fun _ h => h) hl hans (.refl _)
  have h₂ := tell_absorbs (db₀ := db) hr hf hn' (hd _ hmap)
    (fun p hp m hm => hl p ((hsame p).mpr hp) m (hm.imp id (Or.imp id (hmap m)))) hans' (.refl _)
  have h₂ := h₂.congr (S' := fun m => False ∨ ∃ p ∈ calls, Spec.Accepted p ∧ m = p.1) fun m => by simp only [hsame]
  have e := h₁.unique h₂ (by
    rintro q r (h | ⟨p, hp, -, rfl⟩) (h' | ⟨p', hp', -, rfl⟩)
    · exact h.elim
    · exact h.elim
    · exact h'.elim
    · exact hdiff p hp p' hp')
  exact .of_world (hr.runAll _).healthy (hr.runAll _).healthy e

/-- No `add_trust` answers 0 if all trusts are issued by roots whose chains may be longer than their own trust, or are the roots' own trusts. -/
theorem answers_of_roots {db : Db} (hr : Reachable db) (hf : db.NoFaults) {calls : List (TrustRelation × Dur)} {R : PublicKey → Option Nat} (hR : db.world.roots = R)
    (hn : db.relations.length + calls.length + 16 < 2 ^ 32)
    (hroot : ∀ p ∈ calls, ∀ a : Auth, p.1 = .auth a → ∃ n, R a.issuedBy = some n ∧ (1 ≤ n ∨ a.issuedBy = a.trust.issuedFor)) :
    ∀ o ∈ Spec.answersOf (calls.map Spec.tellAt) db, o ≠ .ok (.weight 0) := by
  induction calls generalizing db with
  | nil => exact fun _ h => nomatch h
  | cons p calls ih =>
    rw [List.length_cons] at hn
    obtain ⟨hlen, hstep⟩ := (Spec.tellAt p).refines hr (by rw [Spec.tellAt_offers]; simp only [List.length_singleton]; omega)
    rw [Spec.tellAt_offers, List.length_singleton] at hlen
    have hstep := hstep.resolve_right fun h => h.1 hf
    have key : ((Spec.tellAt p).call db).1 ≠ .ok (.weight 0) ∧ ((Spec.tellAt p).call db).2.world.roots = R := by
      have hp := hroot p (List.mem_cons_self ..)
      obtain ⟨m, now⟩ := p
      cases m with
      | auth a =>
        obtain ⟨n, hroots, hn1⟩ := hp a rfl
        change db.world.Step (.addTrust a.trust a.issuedBy now) ((Op.addTrust a.trust a.issuedBy now).call db).1 ((Op.addTrust a.trust a.issuedBy now).call db).2.world at hstep
        change ((Op.addTrust a.trust a.issuedBy now).call db).1 ≠ _ ∧ ((Op.addTrust a.trust a.issuedBy now).call db).2.world.roots = R
        revert hstep
        generalize ((Op.addTrust a.trust a.issuedBy now).call db).1 = o
        generalize ((Op.addTrust a.trust a.issuedBy now).call db).2.world = w'
        intro hstep
        cases hstep with
        | addTrust hadd =>
          obtain ⟨hv, x, hx, hy, rfl⟩ := hadd
          have hle : 2 ^ n ≤ x := hx.2 (.inr (.inl ⟨n, (congrFun hR _).trans hroots, rfl⟩))
          refine ⟨fun e => ?_, ?_⟩
          · injection e with e
            injection e with e
            rw [e] at hy
            split at hy
            · have := Nat.two_pow_pos n; omega
            · next hne =>
              have hn1 := hn1.resolve_right hne
              have : 2 ^ 1 ≤ 2 ^ n := Nat.pow_le_pow_right (by omega) hn1
              omega
          · split <;> exact hR
        | refuseTrust hv => exact ⟨nofun, hR⟩
      | revocation r =>
        change db.world.Step (.revoke r) ((Op.revoke r).call db).1 ((Op.revoke r).call db).2.world at hstep
        change ((Op.revoke r).call db).1 ≠ _ ∧ ((Op.revoke r).call db).2.world.roots = R
        revert hstep
        generalize ((Op.revoke r).call db).1 = o
        generalize ((Op.revoke r).call db).2.world = w'
        intro hstep
        cases hstep with
        | revoke hv => exact ⟨nofun, hR⟩
        | refuseRevocation hv => exact ⟨nofun, hR⟩
    rw [List.map_cons, Spec.answersOf]
    intro o ho
    rcases List.mem_cons.mp ho with rfl | ho
    · exact key.1
    · exact ih (db := ((Spec.tellAt p).call db).2) ((Spec.tellAt p).call_state db ▸ hr.step _) ((Spec.tellAt p).call_failStop.noFaults hf) key.2 (by omega)
        (fun p' hp' => hroot p' (List.mem_cons_of_mem _ hp')) o ho

/-- **C134**, without a look at the answers: trusts issued by roots (with `max_chain_len` at least 1, or else for themselves) and revocations by anybody can be told in any
order and any number of times. -/
theorem C134_roots {db : Db} (hr : Reachable db) (hf : db.NoFaults) {calls calls' : List (TrustRelation × Dur)} (hsame : ∀ p, p ∈ calls ↔ p ∈ calls')
    (hn : db.relations.length + calls.length + 16 < 2 ^ 32) (hn' : db.relations.length + calls'.length + 16 < 2 ^ 32)
    (hdiff : ∀ p ∈ calls, ∀ q ∈ calls, p.1.SamePair q.1 → p.1.issuedAt.secs = q.1.issuedAt.secs → p.1 = q.1)
    (hlive : ∀ p ∈ calls, ∀ a : Auth, (db.Stored (.auth a) ∨ .auth a ∈ calls.map (·.1)) → Spec.Live a.trust p.2)
    (hroot : ∀ a : Auth, .auth a ∈ calls.map (·.1) → ∃ f, db.rootFactor a.issuedBy = some f ∧ (f ≤ 15 ∨ a.issuedBy = a.trust.issuedFor)) :
    Spec.SameContent (Op.runAll (calls.map Spec.tellAt) db) (Op.runAll (calls'.map Spec.tellAt) db) := by
  have h : ∀ p ∈ calls, ∀ a : Auth, p.1 = .auth a → ∃ n, db.world.roots a.issuedBy = some n ∧ (1 ≤ n ∨ a.issuedBy = a.trust.issuedFor) := by
    intro p hp a e
    obtain ⟨f, hf, h⟩ := hroot a (List.mem_map.mpr ⟨p, hp, e⟩)
    exact ⟨16 - f, (congrArg (Option.map (16 - ·)) hf :), h.imp (fun h => by omega) id⟩
  exact C134_order hr hf hsame hn hn' hdiff hlive (answers_of_roots hr hf rfl hn h)
    (answers_of_roots hr hf rfl hn' fun p hp => h p ((hsame p).mpr hp))

end TG
