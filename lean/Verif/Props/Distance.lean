/-
Property C139: weights and the distance from the roots.
-/
import Verif.Props.Containment
import Verif.Props.Weights

namespace TG
variable [Env]

/-- Trust leads from a root to `k`, and the weight of the root has been halved so often that `2^(16 - n)` is left (at least 1).  The way may lead in circles. -/
inductive Spec.Led (db : Db) (now : Dur) : PublicKey → Nat → Prop
  /-- A root that has signed for itself. -/
  | root {k : PublicKey} {f : Nat} {t : Trust} : db.rootFactor k = some f → t.issuedFor = k → (db.snapshot now).trusted k t → Spec.Led db now k f
  /-- Whom trust leads to may trust somebody. -/
  | step {a : PublicKey} {n : Nat} {t : Trust} : Spec.Led db now a n → (db.snapshot now).trusted a t → Spec.Led db now t.issuedFor (n + 1)

namespace Distance
variable {db : Db} {now : Dur}

/-- A way without circles. -/
structure Way (db : Db) (now : Dur) (k : PublicKey) (f : Nat) (ts : List Trust) : Prop where
  root : ∀ t, ts[0]? = some t → db.rootFactor t.issuedFor = some f ∧ (db.snapshot now).trusted t.issuedFor t
  link : ∀ (i : Nat) a b, ts[i]? = some a → ts[i + 1]? = some b → (db.snapshot now).trusted a.issuedFor b
  last : ∃ t, ts[ts.length - 1]? = some t ∧ t.issuedFor = k
  distinct : ∀ (i j : Nat) a b, i < j → ts[i]? = some a → ts[j]? = some b → a.issuedFor ≠ b.issuedFor

/-- All keys on a way are led to. -/
theorem Way.led {k : PublicKey} {f : Nat} {ts : List Trust} (h0 : ∀ t, ts[0]? = some t → db.rootFactor t.issuedFor = some f ∧ (db.snapshot now).trusted t.issuedFor t)
    (hl : ∀ (i : Nat) a b, ts[i]? = some a → ts[i + 1]? = some b → (db.snapshot now).trusted a.issuedFor b) :
    ∀ (i : Nat) t, ts[i]? = some t → Spec.Led db now t.issuedFor (f + i)
  | 0, t, h => .root (h0 t h).1 rfl (h0 t h).2
  | i + 1, t, h => by
    have hi : i < ts.length := by have := (List.getElem?_eq_some_iff.mp h).1; omega
    have ha := List.getElem?_eq_getElem hi
    exact .step (Way.led (k := k) h0 hl i _ ha) (hl i _ _ ha h)

/-- A way is found that is not longer. -/
theorem way_of_led {k : PublicKey} {n : Nat} (h : Spec.Led db now k n) : ∃ f ts, Way db now k f ts ∧ f + (ts.length - 1) ≤ n := by
  induction h with
  | root hf e ht =>
    subst e
    rename_i f t
    refine ⟨f, [t], ⟨fun a ha => ?_, fun i a b _ hb => (nomatch hb), ⟨t, rfl, rfl⟩, fun i j a b hij _ hb => ?_⟩, Nat.le_refl _⟩
    · cases ha
      exact ⟨hf, ht⟩
    · have := (List.getElem?_eq_some_iff.mp hb).1
      simp only [List.length_cons, List.length_nil] at this
      omega
  | @step a n t _ ht ih =>
    obtain ⟨f, ts, h, hle⟩ := ih
    obtain ⟨tl, hlast, hk⟩ := h.last
    have hlen : ts.length - 1 < ts.length := (List.getElem?_eq_some_iff.mp hlast).1
    by_cases hin : ∃ (i : Nat) (b : Trust), ts[i]? = some b ∧ b.issuedFor = t.issuedFor
    · obtain ⟨i, b, hb, e⟩ := hin
      have hi := (List.getElem?_eq_some_iff.mp hb).1
      have hget : ∀ (j : Nat) x, (ts.take (i + 1))[j]? = some x → ts[j]? = some x := by
        intro j x hx
        rw [List.getElem?_take] at hx
        split at hx
        · exact hx
        · cases hx
      have hl : (ts.take (i + 1)).length = i + 1 := by rw [List.length_take]; omega
      refine ⟨f, ts.take (i + 1), ⟨fun x hx => h.root x (hget _ _ hx), fun j x y hx hy => h.link j x y (hget _ _ hx) (hget _ _ hy), ⟨b, ?_, e⟩,
        fun p q x y hpq hx hy => h.distinct p q x y hpq (hget _ _ hx) (hget _ _ hy)⟩, by omega⟩
      rw [hl, Nat.add_sub_cancel, List.getElem?_take, if_pos (by omega)]
      exact hb
    · have hnew : ∀ (i : Nat) b, ts[i]? = some b → b.issuedFor ≠ t.issuedFor := fun i b hb e => hin ⟨i, b, hb, e⟩
      have hget : ∀ (j : Nat) x, (ts ++ [t])[j]? = some x → ts[j]? = some x ∨ (j = ts.length ∧ x = t) := by
        intro j x hx
        rcases Nat.lt_or_ge j ts.length with hj | hj
        · rw [List.getElem?_append_left hj] at hx
          exact .inl hx
        · have hj' := (List.getElem?_eq_some_iff.mp hx).1
          simp only [List.length_append, List.length_cons, List.length_nil] at hj'
          obtain rfl : j = ts.length := by omega
          rw [List.getElem?_append_right (Nat.le_refl _), Nat.sub_self] at hx
          cases hx
          exact .inr ⟨rfl, rfl⟩
      refine ⟨f, ts ++ [t], ⟨fun x hx => ?_, fun j x y hx hy => ?_, ⟨t, ?_, rfl⟩, fun p q x y hpq hx hy => ?_⟩, by
        simp only [List.length_append, List.length_cons, List.length_nil]; omega⟩
      · rcases hget _ _ hx with hx | ⟨e, -⟩
        · exact h.root x hx
        · omega
      · rcases hget _ _ hy with hy | ⟨e, rfl⟩
        · rcases hget _ _ hx with hx | ⟨e, -⟩
          · exact h.link j x y hx hy
          · have := (List.getElem?_eq_some_iff.mp hy).1
            omega
        · rcases hget _ _ hx with hx | ⟨e', -⟩
          · obtain rfl : j = ts.length - 1 := by omega
            rw [hlast] at hx
            cases hx
            rw [hk]
            exact ht
          · omega
      · simp
      · rcases hget _ _ hx with hx' | ⟨e, -⟩
        · rcases hget _ _ hy with hy | ⟨-, rfl⟩
          · exact h.distinct p q x y hpq hx' hy
          · exact hnew p x hx'
        · rcases hget _ _ hy with hy | ⟨e', -⟩
          · have := (List.getElem?_eq_some_iff.mp hy).1
            omega
          · omega

omit [Env] in
theorem pow_anti {m n : Nat} (h : m ≤ n) : 2 ^ (16 - n) ≤ 2 ^ (16 - m) := Nat.pow_le_pow_right (by decide) (by omega)

/-- What a certificate is worth is what is left on its way. -/
theorem led_of_admissible {k : PublicKey} {c : Certificate} (hc : Spec.Admissible (db.snapshot now) k c) : ∃ n, Spec.Led db now k n ∧ db.certWeight c = 2 ^ (16 - n) := by
  have h2 := hc.linked.long
  have h0 : c.chain[0]? = some c.chain[0] := List.getElem?_eq_getElem (by omega)
  obtain ⟨f, hf⟩ := Option.isSome_iff_exists.mp (Db.rootFactor_isSome.mpr (hc.linked.root _ h0).1)
  have hl : c.chain[c.chain.length - 1]? = some c.chain[c.chain.length - 1] := List.getElem?_eq_getElem (by omega)
  refine ⟨_, ?_, Db.certWeight_cons h0 hf⟩
  have := Way.led (db := db) (now := now) (k := k) (f := f) (fun t ht => by
    rw [h0] at ht
    cases ht
    exact ⟨hf, (hc.linked.root _ h0).2⟩) hc.linked.link _ _ hl
  rw [hc.linked.target _ hl] at this
  exact this

end Distance
open Distance

/-- **C139**: if nobody to whom trust leads has revoked anybody, the weight of a key is the weight of a root, halved once for each trust on the way from it to the key (stopping
at 1), for the best way there is; ways that lead in circles make no difference.  (A root has its weight also without having signed for itself.) -/
theorem C139_distance {db s : Db} {k : PublicKey} {now : Dur} {w : Nat} (hr : Reachable db) (hn : db.relations.length + 16 < 2 ^ 32)
    (hq : ∀ a n b, Spec.Led db now a n → ¬ (db.snapshot now).revoked a b) (h : TrustGraph.weight k now db = (.ok w, s)) :
    IsGreatest {x | x = 0 ∨ (∃ f, db.rootFactor k = some f ∧ x = 2 ^ (16 - f)) ∨ ∃ n, Spec.Led db now k n ∧ x = 2 ^ (16 - n)} w := by
  have hg := weight_ok hr.healthy hn h
  refine ⟨?_, ?_⟩
  · rcases hg.1 with h0 | hf | ⟨c, hc, rfl⟩
    · exact .inl h0
    · exact .inr (.inl hf)
    · exact .inr (.inr (led_of_admissible hc))
  · rintro x (rfl | hf | ⟨n, hl, rfl⟩)
    · exact Nat.zero_le _
    · exact hg.2 (.inr (.inl hf))
    · obtain ⟨f, ts, hw, hle⟩ := way_of_led hl
      obtain ⟨tl, hlast, hk⟩ := hw.last
      have hlen : ts.length - 1 < ts.length := (List.getElem?_eq_some_iff.mp hlast).1
      have h0 : ts[0]? = some ts[0] := List.getElem?_eq_getElem (by omega)
      by_cases h1 : ts.length = 1
      · rw [h1, Nat.sub_self, h0] at hlast
        cases hlast
        refine le_trans (pow_anti (by omega)) (hg.2 (.inr (.inl ⟨f, ?_, rfl⟩)))
        rw [← hk]
        exact (hw.root _ h0).1
      · refine le_trans (pow_anti hle) (hg.2 (.inr (.inr ⟨⟨ts⟩, ⟨⟨by show 2 ≤ ts.length; omega, fun t ht => ⟨?_, (hw.root t ht).2⟩, hw.link, fun t ht => ?_⟩,
          fun i j a b hij ha hb e => absurd e (hw.distinct i j a b hij ha hb), fun i j a b hij ha hb _ => hq _ _ _ (Way.led (k := k) hw.root hw.link i a ha)⟩,
          (Db.certWeight_cons h0 (hw.root _ h0).1).symm⟩)))
        · exact Db.rootFactor_isSome.mp (by rw [(hw.root t ht).1]; rfl)
        · have : ts[ts.length - 1]? = some t := ht
          rw [hlast] at this
          cases this
          exact hk

/-- **C139**: whatever has been revoked, no key has more than that. -/
theorem C139_at_most {db s : Db} {k : PublicKey} {now : Dur} {w : Nat} (hr : Reachable db) (hn : db.relations.length + 16 < 2 ^ 32)
    (h : TrustGraph.weight k now db = (.ok w, s)) (h0 : 0 < w) :
    (∃ f, db.rootFactor k = some f ∧ w = 2 ^ (16 - f)) ∨ ∃ n, Spec.Led db now k n ∧ w = 2 ^ (16 - n) := by
  rcases (weight_ok hr.healthy hn h).1 with rfl | hf | ⟨c, hc, rfl⟩
  · exact absurd h0 (Nat.lt_irrefl _)
  · exact .inl hf
  · exact .inr (led_of_admissible hc)

omit [Env] in
theorem Distance.half {n : Nat} : max 1 (2 ^ (16 - n) / 2) = 2 ^ (16 - (n + 1)) := by
  by_cases h : 16 ≤ n
  · rw [Nat.sub_eq_zero_of_le h, Nat.sub_eq_zero_of_le (by omega)]
    rfl
  · rw [show 16 - n = (16 - (n + 1)) + 1 by omega, Nat.pow_succ, Nat.mul_div_cancel _ (by decide)]
    exact Nat.max_eq_right (Nat.one_le_two_pow)

/-- **C139**: if moreover every root has signed for itself, the weights of the keys agree with those of the keys that trust them: the weight of a key is the greatest of 0, its
weight as a root, and half of the weight (but at least 1) of each key of weight that trusts it. -/
theorem C139_neighbours {db s : Db} {k : PublicKey} {now : Dur} {w : Nat} (hr : Reachable db) (hf : db.NoFaults) (hn : db.relations.length + 16 < 2 ^ 32)
    (hq : ∀ a n b, Spec.Led db now a n → ¬ (db.snapshot now).revoked a b)
    (hself : ∀ a, (db.rootFactor a).isSome → ∃ t : Trust, t.issuedFor = a ∧ (db.snapshot now).trusted a t) (h : TrustGraph.weight k now db = (.ok w, s)) :
    IsGreatest {x | x = 0 ∨ (∃ f, db.rootFactor k = some f ∧ x = 2 ^ (16 - f)) ∨
      ∃ (a : PublicKey) (t : Trust) (wa : Nat), (db.snapshot now).trusted a t ∧ t.issuedFor = k ∧ (TrustGraph.weight a now db).1 = .ok wa ∧ 0 < wa ∧ x = max 1 (wa / 2)} w := by
  have hg := C139_distance hr hn hq h
  have hup : ∀ (a : PublicKey) (t : Trust) (wa : Nat), (db.snapshot now).trusted a t → t.issuedFor = k → (TrustGraph.weight a now db).1 = .ok wa → 0 < wa → max 1 (wa / 2) ≤ w := by
    intro a t wa ht e ha h0
    have key : ∃ n, Spec.Led db now a n ∧ wa = 2 ^ (16 - n) := by
      rcases C139_at_most hr hn (s := (TrustGraph.weight a now db).2) (Prod.ext ha rfl) h0 with ⟨f, hfa, rfl⟩ | hl
      · obtain ⟨t', e', ht'⟩ := hself a (by rw [hfa]; rfl)
        exact ⟨f, .root hfa e' ht', rfl⟩
      · exact hl
    obtain ⟨n, hl, rfl⟩ := key
    rw [Distance.half]
    exact hg.2 (.inr (.inr ⟨n + 1, e ▸ hl.step ht, rfl⟩))
  refine ⟨?_, ?_⟩
  · rcases hg.1 with h0 | hroot | ⟨n, hl, hw⟩
    · exact .inl h0
    · exact .inr (.inl hroot)
    · cases hl with
      | root hfk => exact .inr (.inl ⟨n, hfk, hw⟩)
      | @step a n t hl ht =>
        obtain ⟨wa, hwa⟩ := Db.weight_returns hr.healthy hf (.inr hn) a now
        have hle : 2 ^ (16 - n) ≤ wa := (C139_distance hr hn hq hwa).2 (.inr (.inr ⟨n, hl, rfl⟩))
        have hpos : 0 < wa := Nat.lt_of_lt_of_le (Nat.two_pow_pos _) hle
        have hwa' : (TrustGraph.weight a now db).1 = .ok wa := by rw [hwa]
        refine .inr (.inr ⟨a, t, wa, ht, rfl, hwa', hpos, Nat.le_antisymm ?_ (hup a t wa ht rfl hwa' hpos)⟩)
        rw [hw, ← Distance.half]
        have := Nat.div_le_div_right (c := 2) hle
        omega
  · rintro x (rfl | hx | ⟨a, t, wa, ht, e, ha, h0, rfl⟩)
    · exact Nat.zero_le _
    · exact hg.2 (.inr (.inl hx))
    · exact hup a t wa ht e ha h0

end TG
