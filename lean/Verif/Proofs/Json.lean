/-
The reader of JSON accepts exactly the texts of the grammar.
-/
import Verif.Spec.Json
import Mathlib.Tactic.IntervalCases

namespace TG
namespace JsonProof
open Spec Json

/-! ### White space -/

theorem isWs_iff {c : Char} : isWs c = true ↔ c = ' ' ∨ c = '\n' ∨ c = '\t' ∨ c = '\r' := by
  unfold isWs
  simp only [Bool.or_eq_true, decide_eq_true_eq, or_assoc]

theorem ws_white {w : Str} (h : White w) (s : Str) : ws (w ++ s) = ws s := by
  induction w with
  | nil => rfl
  | cons c w ih =>
    have h1 : isWs c = true := isWs_iff.mpr (h c (by simp))
    show List.dropWhile isWs (c :: (w ++ s)) = _
    rw [List.dropWhile_cons_of_pos h1]
    exact ih fun x hx => h x (by simp [hx])

theorem ws_head {s : Str} (h : ∀ c, s.head? = some c → isWs c = false) : ws s = s := by
  rcases s with _ | ⟨c, s⟩
  · rfl
  · exact List.dropWhile_cons_of_neg (by simp [h c rfl])

theorem ws_white_head {w s : Str} (h : White w) (hs : ∀ c, s.head? = some c → isWs c = false) : ws (w ++ s) = s := by
  rw [ws_white h, ws_head hs]

theorem ws_split (s : Str) : ∃ w, White w ∧ s = w ++ ws s := by
  refine ⟨s.takeWhile isWs, fun c hc => isWs_iff.mp ?_, (List.takeWhile_append_dropWhile).symm⟩
  exact List.mem_takeWhile_imp hc

/-! ### Characters and strings -/

theorem hexVal_iff {c : Char} {n : Nat} : hexVal c = some n ↔ HexDigit c n := by
  constructor
  · intro h
    have key : ∀ m, m < 128 → ∀ n, hexVal (Char.ofNat m) = some n → n < 16 ∧ (Char.ofNat m = ("0123456789abcdef".toList)[n]! ∨ Char.ofNat m = ("0123456789ABCDEF".toList)[n]!) := by
      intro m hm n h
      have : ∀ m, m < 128 → ∀ n ∈ hexVal (Char.ofNat m),
          n < 16 ∧ (Char.ofNat m = ("0123456789abcdef".toList)[n]! ∨ Char.ofNat m = ("0123456789ABCDEF".toList)[n]!) := by
        decide +kernel
      exact this m hm n h
    have hc : c.toNat < 128 := by
      unfold hexVal at h
      split at h
      · next h' => exact Nat.lt_of_le_of_lt h'.2 (by decide)
      split at h
      · next h' => exact Nat.lt_of_le_of_lt h'.2 (by decide)
      split at h
      · next h' => exact Nat.lt_of_le_of_lt h'.2 (by decide)
      · cases h
    have := key c.toNat hc n
    rw [Char.ofNat_toNat] at this
    exact this h
  · rintro ⟨hn, h⟩
    have : ∀ n, n < 16 → hexVal ("0123456789abcdef".toList)[n]! = some n ∧ hexVal ("0123456789ABCDEF".toList)[n]! = some n := by decide +kernel
    rcases h with rfl | rfl
    · exact (this n hn).1
    · exact (this n hn).2

theorem hex4_iff {s r : Str} {u : Nat} : hex4 s = some (u, r) ↔ ∃ t, Hex4 t u ∧ s = t ++ r := by
  constructor
  · intro h
    unfold hex4 at h
    split at h
    · next a b c d r' =>
      simp only [Option.bind_eq_bind, Option.bind_eq_some_iff, Option.some.injEq, Prod.mk.injEq] at h
      obtain ⟨w, hw, x, hx, y, hy, z, hz, rfl, rfl⟩ := h
      refine ⟨_, ⟨a, b, c, d, w, x, y, z, rfl, hexVal_iff.mp hw, hexVal_iff.mp hx, hexVal_iff.mp hy, hexVal_iff.mp hz, by omega⟩, rfl⟩
    · cases h
  · rintro ⟨_, ⟨a, b, c, d, w, x, y, z, rfl, hw, hx, hy, hz, rfl⟩, rfl⟩
    show hex4 (a :: b :: c :: d :: r) = _
    unfold hex4
    simp only [hexVal_iff.mpr hw, hexVal_iff.mpr hx, hexVal_iff.mpr hy, hexVal_iff.mpr hz, Option.bind_eq_bind, Option.bind_some]
    rw [show ((w * 16 + x) * 16 + y) * 16 + z = w * 4096 + x * 256 + y * 16 + z by omega]

theorem char_valid (c : Char) : c.toNat < 0xD800 ∨ 0xDFFF < c.toNat := by
  rcases c.valid with h | h
  · exact .inl h
  · exact .inr h.1

theorem toNat_ofNat {n : Nat} (h : n < 0xD800 ∨ 0xDFFF < n) (h' : n < 0x110000) : (Char.ofNat n).toNat = n := by
  have : n.isValidChar := by
    rcases h with h | h
    · exact .inl h
    · exact .inr ⟨h, h'⟩
  rw [Char.ofNat, dif_pos this]
  rfl

theorem hex4_lt {t : Str} {u : Nat} (h : Hex4 t u) : u < 65536 := by
  obtain ⟨a, b, c, d, w, x, y, z, -, hw, hx, hy, hz, rfl⟩ := h
  have := hw.1; have := hx.1; have := hy.1; have := hz.1
  omega

/-- The texts after a backslash and `u`. -/
theorem unicode_iff {s r : Str} {c : Char} : unicode s = some (c, r) ↔ ∃ t, CharText c ('\\' :: 'u' :: t) ∧ s = t ++ r ∧ t ≠ [] := by
  constructor
  · intro h
    unfold unicode at h
    simp only [Option.bind_eq_bind, Option.bind_eq_some_iff] at h
    obtain ⟨⟨u, r1⟩, h1, h⟩ := h
    obtain ⟨t, ht, rfl⟩ := hex4_iff.mp h1
    have hu := hex4_lt ht
    have hne : t ≠ [] := by obtain ⟨a, b, c, d, w, x, y, z, rfl, -⟩ := ht; simp
    dsimp only at h
    split at h
    · next hu' =>
      cases h
      refine ⟨t, .unicode _ _ ?_, rfl, hne⟩
      rw [toNat_ofNat hu' (by omega)]
      exact ht
    · next hu1 =>
      split at h
      · cases h
      · next hu2 =>
        split at h
        · next r2 =>
          simp only [Option.bind_eq_some_iff] at h
          obtain ⟨⟨l, r3⟩, h2, h⟩ := h
          obtain ⟨t', ht', rfl⟩ := hex4_iff.mp h2
          dsimp only at h
          split at h
          · next hl =>
            simp only [Option.some.injEq, Prod.mk.injEq] at h
            obtain ⟨rfl, rfl⟩ := h
            have hlt := hex4_lt ht'
            refine ⟨t ++ '\\' :: 'u' :: t', .surrogates _ u l t t' ht ht' (by omega) (by omega) hl.1 (by omega) ?_, by simp, by simp⟩
            exact toNat_ofNat (.inr (by omega)) (by omega)
          · cases h
        · cases h
  · rintro ⟨t, hc, rfl, hne⟩
    generalize hx : ('\\' :: 'u' :: t) = x at hc
    unfold unicode
    cases hc with
    | plain _ _ _ => cases hx
    | unicode c t' h =>
      cases hx
      rw [hex4_iff.mpr ⟨t, h, rfl⟩]
      simp only [Option.bind_eq_bind, Option.bind_some]
      have := char_valid c
      rw [if_pos this, Char.ofNat_toNat]
    | surrogates c hi lo t1 t2 h1 h2 a b d e f =>
      have hx : t = t1 ++ '\\' :: 'u' :: t2 := by simpa using hx
      subst hx
      rw [List.append_assoc, hex4_iff.mpr ⟨t1, h1, rfl⟩]
      simp only [Option.bind_eq_bind, Option.bind_some, List.cons_append]
      rw [if_neg (by omega), if_neg (by omega), hex4_iff.mpr ⟨t2, h2, rfl⟩]
      simp only [Option.bind_some]
      rw [if_pos (by omega), ← f, Char.ofNat_toNat]
    | _ => cases hx

theorem unescape_iff {e c : Char} : unescape e = some c ↔ CharText c ['\\', e] ∧ e ≠ 'u' := by
  constructor
  · intro h
    unfold unescape at h
    split at h
    · next h' => subst h'; cases h; exact ⟨.quote, by decide⟩
    split at h
    · next h' => subst h'; cases h; exact ⟨.backslash, by decide⟩
    split at h
    · next h' => subst h'; cases h; exact ⟨.slash, by decide⟩
    split at h
    · next h' => subst h'; cases h; exact ⟨.backspace, by decide⟩
    split at h
    · next h' => subst h'; cases h; exact ⟨.formFeed, by decide⟩
    split at h
    · next h' => subst h'; cases h; exact ⟨.lineFeed, by decide⟩
    split at h
    · next h' => subst h'; cases h; exact ⟨.carriageReturn, by decide⟩
    split at h
    · next h' => subst h'; cases h; exact ⟨.tab, by decide⟩
    · cases h
  · rintro ⟨h, hu⟩
    generalize hx : ['\\', e] = x at h
    cases h with
    | plain => cases hx
    | unicode => cases hx; exact absurd rfl hu
    | surrogates _ _ _ t t' => have := congrArg List.length hx; simp at this
    | _ => cases hx; rfl

theorem string_sound : ∀ {n : Nat} {s k r : Str}, string n s = some (k, r) → ∃ t, StringText k t ∧ s = t ++ '"' :: r
  | 0, s, k, r, h => by cases h
  | n + 1, [], k, r, h => by cases h
  | n + 1, c :: s, k, r, h => by
    unfold string at h
    split at h
    · next hc => subst hc; cases h; exact ⟨[], .nil, rfl⟩
    · next hq =>
      split at h
      · next hc =>
        subst hc
        rcases s with _ | ⟨e, s⟩
        · cases h
        · dsimp only at h
          split at h
          · next he =>
            subst he
            simp only [Option.bind_eq_bind, Option.bind_eq_some_iff] at h
            obtain ⟨⟨c, r1⟩, h1, ⟨k1, r2⟩, h2, h3⟩ := h
            cases h3
            obtain ⟨t, ht, rfl, -⟩ := unicode_iff.mp h1
            obtain ⟨t', ht', rfl⟩ := string_sound h2
            exact ⟨_, .cons ht ht', by simp⟩
          · simp only [Option.bind_eq_bind, Option.bind_eq_some_iff] at h
            obtain ⟨c, h1, ⟨k1, r2⟩, h2, h3⟩ := h
            cases h3
            obtain ⟨t', ht', rfl⟩ := string_sound h2
            exact ⟨_, .cons (unescape_iff.mp h1).1 ht', by simp⟩
      · next hb =>
        split at h
        · cases h
        · next hn =>
          simp only [Option.bind_eq_bind, Option.bind_eq_some_iff] at h
          obtain ⟨⟨k1, r2⟩, h2, h3⟩ := h
          cases h3
          obtain ⟨t', ht', rfl⟩ := string_sound h2
          exact ⟨_, .cons (.plain c (by omega) hq hb) ht', rfl⟩

theorem charText_shape {c : Char} {t : Str} (h : CharText c t) : (t = [c] ∧ 0x20 ≤ c.toNat ∧ c ≠ '"' ∧ c ≠ '\\') ∨ (∃ e, t = ['\\', e] ∧ e ≠ 'u') ∨
    ∃ t', t = '\\' :: 'u' :: t' ∧ t' ≠ [] := by
  cases h with
  | plain _ a b c => exact .inl ⟨rfl, a, b, c⟩
  | unicode c t h =>
    obtain ⟨a, b, c, d, w, x, y, z, rfl, -⟩ := h
    exact .inr (.inr ⟨_, rfl, by simp⟩)
  | surrogates c hi lo t t' h => exact .inr (.inr ⟨_, rfl, by simp⟩)
  | _ => exact .inr (.inl ⟨_, rfl, by decide⟩)

theorem string_complete {k t : Str} (h : StringText k t) : ∀ (n : Nat) (r : Str), t.length < n → string n (t ++ '"' :: r) = some (k, r) := by
  induction h with
  | nil =>
    intro n r hn
    obtain ⟨n, rfl⟩ : ∃ m, n = m + 1 := ⟨n - 1, by simp at hn; omega⟩
    unfold string
    rfl
  | @cons c t s ts hc _ ih =>
    intro n r hn
    obtain ⟨n, rfl⟩ : ∃ m, n = m + 1 := ⟨n - 1, by omega⟩
    rw [List.length_append] at hn
    rcases charText_shape hc with ⟨rfl, h1, h2, h3⟩ | ⟨e, rfl, he⟩ | ⟨t', rfl, ht⟩
    · show string (n + 1) (c :: (ts ++ '"' :: r)) = _
      unfold string
      rw [if_neg h2, if_neg h3, if_neg (by omega), ih n r (by simp at hn; omega)]
      rfl
    · show string (n + 1) ('\\' :: e :: (ts ++ '"' :: r)) = _
      unfold string
      rw [if_neg (by decide), if_pos rfl]
      dsimp only
      rw [if_neg he, unescape_iff.mpr ⟨hc, he⟩, ih n r (by simp at hn; omega)]
      rfl
    · have : '\\' :: 'u' :: t' ++ ts ++ '"' :: r = '\\' :: 'u' :: (t' ++ (ts ++ '"' :: r)) := by simp
      rw [this]
      unfold string
      rw [if_neg (by decide), if_pos rfl]
      dsimp only
      rw [if_pos rfl, unicode_iff.mpr ⟨t', hc, rfl, ht⟩]
      simp only [Option.bind_eq_bind, Option.bind_some]
      rw [ih n r (by simp at hn; omega)]
      rfl

/-! ### Numbers -/

theorem isDigit_iff {c : Char} : isDigit c = true ↔ c ∈ "0123456789".toList := by
  constructor
  · intro h
    have key : ∀ m, m < 128 → isDigit (Char.ofNat m) = true → Char.ofNat m ∈ "0123456789".toList := by decide +kernel
    have hc : c.toNat < 128 := by
      unfold isDigit at h
      simp only [Bool.and_eq_true, decide_eq_true_eq] at h
      exact Nat.lt_of_le_of_lt h.2 (by decide)
    have := key c.toNat hc
    rw [Char.ofNat_toNat] at this
    exact this h
  · have : ∀ c ∈ "0123456789".toList, isDigit c = true := by decide
    exact this c

theorem span_digits {d r : Str} (hd : ∀ c ∈ d, c ∈ "0123456789".toList) (hr : ∀ c, r.head? = some c → isDigit c = false) :
    (d ++ r).takeWhile isDigit = d ∧ (d ++ r).dropWhile isDigit = r := by
  induction d with
  | nil =>
    rcases r with _ | ⟨c, r⟩
    · exact ⟨rfl, rfl⟩
    · simp [hr c rfl]
  | cons c d ih =>
    obtain ⟨i1, i2⟩ := ih fun x hx => hd x (by simp [hx])
    have := isDigit_iff.mpr (hd c (by simp))
    simp [this, i1, i2]

theorem digits1_complete {d r : Str} (hd : Digits d) (hr : ∀ c, r.head? = some c → isDigit c = false) : digits1 (d ++ r) = some (d, r) := by
  obtain ⟨h1, h2⟩ := span_digits hd.2 hr
  unfold digits1
  rw [h1, h2]
  rcases d with _ | ⟨c, d⟩
  · exact absurd rfl hd.1
  · rfl

theorem digits1_sound {s d r : Str} (h : digits1 s = some (d, r)) : Digits d ∧ s = d ++ r := by
  unfold digits1 at h
  split at h
  · cases h
  · next hne =>
    cases h
    exact ⟨⟨hne, fun c hc => isDigit_iff.mp (List.mem_takeWhile_imp hc)⟩, (List.takeWhile_append_dropWhile).symm⟩

/-- What may follow a number. -/
def Stops (r : Str) : Prop := ∀ c, r.head? = some c → c ∉ "0123456789.eE".toList

theorem Stops.digit {r : Str} (h : Stops r) : ∀ c, r.head? = some c → isDigit c = false := by
  intro c hc
  have h1 := h c hc
  rcases hd : isDigit c with _ | _
  · rfl
  · have : ∀ c ∈ "0123456789".toList, c ∈ "0123456789.eE".toList := by decide
    exact absurd (this c (isDigit_iff.mp hd)) h1

theorem digits_head {d : Str} (h : Digits d) : ∃ c d', d = c :: d' ∧ c ∈ "0123456789".toList := by
  rcases d with _ | ⟨c, d⟩
  · exact absurd rfl h.1
  · exact ⟨c, d, rfl, h.2 c (by simp)⟩

theorem number_sound {s t r : Str} (h : number s = some (t, r)) : NumberText t ∧ s = t ++ r := by
  unfold number at h
  simp only [Option.bind_eq_bind, Option.bind_eq_some_iff] at h
  obtain ⟨⟨i, r1⟩, h1, ⟨f, r2⟩, h2, ⟨e, r3⟩, h3, h⟩ := h
  cases h
  have hm : ((minus s).1 = [] ∨ (minus s).1 = ['-']) ∧ s = (minus s).1 ++ (minus s).2 := by
    unfold minus
    split
    · exact ⟨.inr rfl, rfl⟩
    · exact ⟨.inl rfl, rfl⟩
  have hi : (i = ['0'] ∨ Digits i ∧ i.head? ≠ some '0') ∧ (minus s).2 = i ++ r1 := by
    generalize (minus s).2 = x at h1
    unfold integer at h1
    split at h1
    · cases h1; exact ⟨.inl rfl, rfl⟩
    · next hx =>
      obtain ⟨a, b⟩ := digits1_sound h1
      refine ⟨.inr ⟨a, fun hh => ?_⟩, b⟩
      obtain ⟨c, d, rfl, -⟩ := digits_head a
      cases hh
      exact hx _ b
  have hf : (f = [] ∨ ∃ d, Digits d ∧ f = '.' :: d) ∧ r1 = f ++ r2 := by
    dsimp only at h2
    unfold fraction at h2
    split at h2
    · simp only [Option.map_eq_some_iff] at h2
      obtain ⟨⟨d, r'⟩, hd, h2⟩ := h2
      cases h2
      obtain ⟨a, rfl⟩ := digits1_sound hd
      exact ⟨.inr ⟨d, a, rfl⟩, rfl⟩
    · cases h2; exact ⟨.inl rfl, rfl⟩
  have he : (e = [] ∨ ∃ c sign d, (c = 'e' ∨ c = 'E') ∧ (sign = [] ∨ sign = ['+'] ∨ sign = ['-']) ∧ Digits d ∧ e = c :: sign ++ d) ∧ r2 = e ++ r3 := by
    dsimp only at h3
    unfold exponent at h3
    split at h3
    · next c r =>
      split at h3
      · next hc =>
        simp only [Option.map_eq_some_iff] at h3
        obtain ⟨⟨d, r'⟩, hd, h3⟩ := h3
        cases h3
        obtain ⟨a, b⟩ := digits1_sound hd
        have hs : ((sign r).1 = [] ∨ (sign r).1 = ['+'] ∨ (sign r).1 = ['-']) ∧ r = (sign r).1 ++ (sign r).2 := by
          unfold sign
          split
          · exact ⟨.inr (.inl rfl), rfl⟩
          · exact ⟨.inr (.inr rfl), rfl⟩
          · exact ⟨.inl rfl, rfl⟩
        refine ⟨.inr ⟨c, (sign r).1, d, hc, hs.1, a, rfl⟩, ?_⟩
        rw [List.cons_append, List.cons_append, List.append_assoc, ← b, ← hs.2]
      · cases h3; exact ⟨.inl rfl, rfl⟩
    · cases h3; exact ⟨.inl rfl, rfl⟩
  refine ⟨⟨_, i, f, e, rfl, hm.1, hi.1, hf.1, he.1⟩, ?_⟩
  dsimp only
  conv => lhs; rw [hm.2, hi.2, hf.2, he.2]
  simp

theorem exponent_complete {e r : Str} (h : e = [] ∨ ∃ c sign d, (c = 'e' ∨ c = 'E') ∧ (sign = [] ∨ sign = ['+'] ∨ sign = ['-']) ∧ Digits d ∧ e = c :: sign ++ d)
    (hr : Stops r) : exponent (e ++ r) = some (e, r) := by
  rcases h with rfl | ⟨c, sg, d, hc, hs, hd, rfl⟩
  · rcases r with _ | ⟨c, r⟩
    · rfl
    · have := hr c rfl
      show exponent (c :: r) = _
      unfold exponent
      dsimp only
      rw [if_neg]
      rintro (rfl | rfl) <;> exact this (by decide)
  · show exponent (c :: (sg ++ d ++ r)) = _
    unfold exponent
    dsimp only
    rw [if_pos hc]
    have hsg : sign (sg ++ d ++ r) = (sg, d ++ r) := by
      rcases hs with rfl | rfl | rfl
      · obtain ⟨x, d', rfl, hx⟩ := digits_head hd
        show sign (x :: (d' ++ r)) = _
        unfold sign
        split
        · next heq => cases heq; exact absurd hx (by decide)
        · next heq => cases heq; exact absurd hx (by decide)
        · rfl
      · rfl
      · rfl
    rw [hsg, digits1_complete hd hr.digit]
    rfl

theorem fraction_complete {f r : Str} (h : f = [] ∨ ∃ d, Digits d ∧ f = '.' :: d) (hr : ∀ c, r.head? = some c → isDigit c = false ∧ c ≠ '.') :
    fraction (f ++ r) = some (f, r) := by
  rcases h with rfl | ⟨d, hd, rfl⟩
  · show fraction r = _
    unfold fraction
    split
    · exact absurd rfl (hr '.' rfl).2
    · rfl
  · show Option.map (fun x => ('.' :: x.1, x.2)) (digits1 (d ++ r)) = _
    rw [digits1_complete hd fun c hc => (hr c hc).1]
    rfl

theorem number_complete {t r : Str} (h : NumberText t) (hr : Stops r) : number (t ++ r) = some (t, r) := by
  obtain ⟨m, i, f, e, rfl, hm, hi, hf, he⟩ := h
  have eh : ∀ c, (e ++ r).head? = some c → isDigit c = false ∧ c ≠ '.' := by
    intro c hc
    rcases he with rfl | ⟨x, sg, d, hx, -, -, rfl⟩
    · exact ⟨hr.digit c hc, fun e => hr c hc (by subst e; decide)⟩
    · cases hc
      rcases hx with rfl | rfl <;> decide
  have fh : ∀ c, (f ++ (e ++ r)).head? = some c → isDigit c = false := by
    intro c hc
    rcases hf with rfl | ⟨d, hd, rfl⟩
    · exact (eh c hc).1
    · cases hc; decide
  have hi' : integer (i ++ (f ++ (e ++ r))) = some (i, f ++ (e ++ r)) := by
    rcases hi with rfl | ⟨hd, h0⟩
    · rfl
    · obtain ⟨x, d, rfl, hx⟩ := digits_head hd
      show integer (x :: (d ++ (f ++ (e ++ r)))) = _
      unfold integer
      split
      · next heq => cases heq; exact absurd rfl h0
      · exact digits1_complete hd fh
  have hm' : minus (m ++ i ++ f ++ e ++ r) = (m, i ++ (f ++ (e ++ r))) := by
    rcases hm with rfl | rfl
    · have : ∃ x i', i = x :: i' ∧ x ≠ '-' := by
        rcases hi with rfl | ⟨hd, -⟩
        · exact ⟨_, _, rfl, by decide⟩
        · obtain ⟨x, d, rfl, hx⟩ := digits_head hd
          exact ⟨x, d, rfl, fun e => by subst e; exact absurd hx (by decide)⟩
      obtain ⟨x, i', rfl, hx⟩ := this
      simp only [List.nil_append, List.cons_append, List.append_assoc]
      unfold minus
      split
      · next heq => cases heq; exact absurd rfl hx
      · rfl
    · simp [minus]
  unfold number
  rw [hm']
  simp only [Option.bind_eq_bind, hi', Option.bind_some, fraction_complete hf eh, exponent_complete he hr]

theorem number_head {t : Str} (h : NumberText t) : ∃ c t', t = c :: t' ∧ c ∈ "-0123456789".toList := by
  obtain ⟨m, i, f, e, rfl, hm, hi, hf, he⟩ := h
  rcases hm with rfl | rfl
  · rcases hi with rfl | ⟨hd, -⟩
    · exact ⟨_, _, rfl, by decide⟩
    · obtain ⟨x, d, rfl, hx⟩ := digits_head hd
      have : ∀ x ∈ "0123456789".toList, x ∈ "-0123456789".toList := by decide
      exact ⟨x, _, rfl, this x hx⟩
  · exact ⟨_, _, rfl, by decide⟩

/-! ### Values -/

theorem item_head {i : Item} {t : Str} (h : ItemText i t) : ∃ c t', t = c :: t' ∧ c ∈ "\"[{ntf-0123456789".toList := by
  induction h with
  | num h =>
    obtain ⟨c, t', rfl, hc⟩ := number_head h
    have : ∀ c ∈ "-0123456789".toList, c ∈ "\"[{ntf-0123456789".toList := by decide
    exact ⟨c, t', rfl, this c hc⟩
  | element _ _ ih => obtain ⟨c, t', rfl, hc⟩ := ih; exact ⟨c, _, rfl, hc⟩
  | elements _ _ _ _ ih _ => obtain ⟨c, t', rfl, hc⟩ := ih; exact ⟨c, _, rfl, hc⟩
  | null => exact ⟨'n', _, rfl, by decide⟩
  | true => exact ⟨'t', _, rfl, by decide⟩
  | false => exact ⟨'f', _, rfl, by decide⟩
  | _ => exact ⟨_, _, rfl, by decide⟩

theorem head_notWs : ∀ c ∈ "\"[{ntf-0123456789".toList, isWs c = false ∧ c ≠ ']' ∧ c ≠ '}' := by decide

theorem head_tail {s : Str} {c : Char} (h : s.head? = some c) : s = c :: s.tail := by
  rcases s with _ | ⟨x, s⟩
  · cases h
  · cases h; rfl

theorem ident_sound {w s r : Str} {v v' : Json} (h : ident w v s = some (v', r)) : v' = v ∧ s = w ++ r := by
  unfold ident at h
  split at h
  · next hw =>
    cases h
    refine ⟨rfl, ?_⟩
    conv => lhs; rw [← List.take_append_drop w.length s, hw]
  · cases h

theorem ident_complete (w r : Str) (v : Json) : ident w v (w ++ r) = some (v, r) := by
  unfold ident
  rw [List.take_left', List.drop_left', if_pos rfl]
  · rfl
  · rfl

theorem sound (n : Nat) :
    (∀ s v r, value n s = some (v, r) → ∃ t, ItemText (.value v) t ∧ s = t ++ r) ∧
    (∀ s vs r, elements n s = some (vs, r) → ∃ t, ItemText (.elements vs) t ∧ s = t ++ ']' :: r) ∧
    (∀ s fs r, members n s = some (fs, r) → ∃ t, ItemText (.members fs) t ∧ s = t ++ '}' :: r) := by
  induction n with
  | zero =>
    refine ⟨fun s v r h => ?_, fun s v r h => ?_, fun s v r h => ?_⟩
    · rw [value] at h; cases h
    · rw [elements] at h; cases h
    · rw [members] at h
      · cases h
      · intro n r h; cases h
  | succ n ih =>
    obtain ⟨ihv, ihe, ihm⟩ := ih
    refine ⟨fun s v r h => ?_, fun s vs r h => ?_, fun s fs r h => ?_⟩
    · rcases s with _ | ⟨c, s⟩
      · rw [value] at h; cases h
      rw [value] at h
      split at h
      · next hc =>
        subst hc
        simp only [Option.map_eq_some_iff] at h
        obtain ⟨⟨k, r'⟩, hk, h⟩ := h
        cases h
        obtain ⟨t, ht, rfl⟩ := string_sound hk
        exact ⟨_, .str ht, by simp⟩
      split at h
      · next hc =>
        subst hc
        obtain ⟨w, hw, hs⟩ := ws_split s
        split at h
        · next heq =>
          cases h
          exact ⟨_, .emptyArr hw, by rw [List.cons_append, List.cons_append, List.append_assoc]; exact congrArg _ (hs.trans (congrArg _ (head_tail heq)))⟩
        · simp only [Option.map_eq_some_iff] at h
          obtain ⟨⟨vs, r'⟩, hk, h⟩ := h
          cases h
          obtain ⟨t, ht, e⟩ := ihe _ _ _ hk
          exact ⟨_, .arr hw ht, by rw [hs, e]; simp⟩
      split at h
      · next hc =>
        subst hc
        obtain ⟨w, hw, hs⟩ := ws_split s
        split at h
        · next heq =>
          cases h
          exact ⟨_, .emptyObj hw, by rw [List.cons_append, List.cons_append, List.append_assoc]; exact congrArg _ (hs.trans (congrArg _ (head_tail heq)))⟩
        · simp only [Option.map_eq_some_iff] at h
          obtain ⟨⟨fs, r'⟩, hk, h⟩ := h
          cases h
          obtain ⟨t, ht, e⟩ := ihm _ _ _ hk
          exact ⟨_, .obj hw ht, by rw [hs, e]; simp⟩
      split at h
      · next hc =>
        subst hc
        obtain ⟨rfl, e⟩ := ident_sound h
        rw [e]
        exact ⟨_, .null, rfl⟩
      split at h
      · next hc =>
        subst hc
        obtain ⟨rfl, e⟩ := ident_sound h
        rw [e]
        exact ⟨_, .true, rfl⟩
      split at h
      · next hc =>
        subst hc
        obtain ⟨rfl, e⟩ := ident_sound h
        rw [e]
        exact ⟨_, .false, rfl⟩
      · simp only [Option.map_eq_some_iff] at h
        obtain ⟨⟨t, r'⟩, hk, h⟩ := h
        cases h
        obtain ⟨ht, e⟩ := number_sound hk
        exact ⟨t, .num ht, e⟩
    · rw [elements] at h
      simp only [Option.bind_eq_bind, Option.bind_eq_some_iff] at h
      obtain ⟨⟨v, r1⟩, h1, h⟩ := h
      obtain ⟨t, ht, rfl⟩ := ihv _ _ _ h1
      dsimp only at h
      obtain ⟨w, hw, hs⟩ := ws_split r1
      split at h
      · next heq =>
        cases h
        rw [heq] at hs
        exact ⟨_, .element ht hw, by rw [hs]; simp⟩
      · next r2 heq =>
        simp only [Option.bind_eq_some_iff] at h
        obtain ⟨⟨vs', r3⟩, h3, h⟩ := h
        cases h
        obtain ⟨t', ht', e⟩ := ihe _ _ _ h3
        obtain ⟨w', hw', hs'⟩ := ws_split r2
        rw [e] at hs'
        rw [heq, hs'] at hs
        exact ⟨_, .elements ht hw hw' ht', by rw [hs]; simp⟩
      · cases h
    · rcases s with _ | ⟨c, s⟩
      · rw [members] at h
        · cases h
        · intro n r _ h; cases h
      by_cases hc : c = '"'
      · subst hc
        rw [members] at h
        simp only [Option.bind_eq_bind, Option.bind_eq_some_iff] at h
        obtain ⟨⟨k, r1⟩, h1, h⟩ := h
        obtain ⟨tk, htk, rfl⟩ := string_sound h1
        dsimp only at h
        obtain ⟨w, hw, hs⟩ := ws_split r1
        split at h
        · next r2 heq =>
          simp only [Option.bind_eq_some_iff] at h
          obtain ⟨⟨v, r3⟩, h3, h⟩ := h
          obtain ⟨t, ht, e⟩ := ihv _ _ _ h3
          obtain ⟨w', hw', hs'⟩ := ws_split r2
          rw [e] at hs'
          rw [heq, hs'] at hs
          dsimp only at h
          obtain ⟨w'', hw'', hs''⟩ := ws_split r3
          split at h
          · next heq =>
            cases h
            rw [heq] at hs''
            exact ⟨_, .member htk hw hw' ht hw'', by rw [hs, hs'']; simp⟩
          · next r4 heq =>
            simp only [Option.bind_eq_some_iff] at h
            obtain ⟨⟨fs', r5⟩, h5, h⟩ := h
            cases h
            obtain ⟨ts, hts, e⟩ := ihm _ _ _ h5
            obtain ⟨w3, hw3, hs3⟩ := ws_split r4
            rw [e] at hs3
            rw [heq, hs3] at hs''
            exact ⟨_, .members htk hw hw' ht hw'' hw3 hts, by rw [hs, hs'']; simp⟩
          · cases h
        · cases h
      · rw [members] at h
        · cases h
        · intro n r _ h; cases h; exact hc rfl

theorem stops_ws {w : Str} {c : Char} (hw : White w) (hc : c ∉ "0123456789.eE".toList) (r : Str) : Stops (w ++ c :: r) := by
  intro x hx
  rcases w with _ | ⟨y, w⟩
  · cases hx; exact hc
  · cases hx
    rcases hw x (by simp) with rfl | rfl | rfl | rfl <;> decide

theorem head_delim {c : Char} {r : Str} (h : isWs c = false) : ∀ x, (c :: r).head? = some x → isWs x = false := by
  intro x hx; cases hx; exact h

/-- What the reader does with the text of an item. -/
def Good : Item → Str → Prop
  | .value v, t => ∀ n r, 2 * t.length + 1 ≤ n → Stops r → value n (t ++ r) = some (v, r)
  | .elements vs, t => ∀ n r, 2 * t.length + 2 ≤ n → elements n (t ++ ']' :: r) = some (vs, r)
  | .members fs, t => ∀ n r, 2 * t.length + 2 ≤ n → members n (t ++ '}' :: r) = some (fs, r)

theorem complete {i : Item} {t : Str} (h : ItemText i t) : Good i t := by
  induction h with
  | null =>
    intro n r hn _
    obtain ⟨n, rfl⟩ : ∃ m, n = m + 1 := ⟨n - 1, by omega⟩
    show value (n + 1) ('n' :: ("ull".toList ++ r)) = _
    rw [value, if_neg (by decide), if_neg (by decide), if_neg (by decide), if_pos rfl, ident_complete]
  | true =>
    intro n r hn _
    obtain ⟨n, rfl⟩ : ∃ m, n = m + 1 := ⟨n - 1, by omega⟩
    show value (n + 1) ('t' :: ("rue".toList ++ r)) = _
    rw [value, if_neg (by decide), if_neg (by decide), if_neg (by decide), if_neg (by decide), if_pos rfl, ident_complete]
  | false =>
    intro n r hn _
    obtain ⟨n, rfl⟩ : ∃ m, n = m + 1 := ⟨n - 1, by omega⟩
    show value (n + 1) ('f' :: ("alse".toList ++ r)) = _
    rw [value, if_neg (by decide), if_neg (by decide), if_neg (by decide), if_neg (by decide), if_neg (by decide), if_pos rfl, ident_complete]
  | num h =>
    intro n r hn hr
    obtain ⟨n, rfl⟩ : ∃ m, n = m + 1 := ⟨n - 1, by omega⟩
    have hk := number_complete h hr
    obtain ⟨c, t', rfl, hc⟩ := number_head h
    have hd : ∀ c ∈ "-0123456789".toList, c ≠ '"' ∧ c ≠ '[' ∧ c ≠ '{' ∧ c ≠ 'n' ∧ c ≠ 't' ∧ c ≠ 'f' := by decide
    obtain ⟨h1, h2, h3, h4, h5, h6⟩ := hd c hc
    show value (n + 1) (c :: (t' ++ r)) = _
    rw [value, if_neg h1, if_neg h2, if_neg h3, if_neg h4, if_neg h5, if_neg h6]
    rw [show c :: t' ++ r = c :: (t' ++ r) from rfl] at hk
    rw [hk]
    rfl
  | @str s t h =>
    intro n r hn hr
    obtain ⟨n, rfl⟩ : ∃ m, n = m + 1 := ⟨n - 1, by omega⟩
    rw [show '"' :: t ++ ['"'] ++ r = '"' :: (t ++ '"' :: r) by simp]
    rw [value, if_pos rfl, string_complete h _ _ (by simp; omega)]
    rfl
  | @emptyArr w hw =>
    intro n r hn hr
    obtain ⟨n, rfl⟩ : ∃ m, n = m + 1 := ⟨n - 1, by omega⟩
    rw [show '[' :: w ++ [']'] ++ r = '[' :: (w ++ ']' :: r) by simp]
    rw [value, if_neg (by decide), if_pos rfl, ws_white_head hw (head_delim (by decide)), List.head?_cons, if_pos rfl]
    rfl
  | @arr vs w t hw ht ih =>
    intro n r hn hr
    obtain ⟨n, rfl⟩ : ∃ m, n = m + 1 := ⟨n - 1, by omega⟩
    rw [show '[' :: w ++ t ++ [']'] ++ r = '[' :: (w ++ (t ++ ']' :: r)) by simp]
    obtain ⟨c, t', rfl, hc⟩ := item_head ht
    obtain ⟨h1, h2, -⟩ := head_notWs c hc
    rw [value, if_neg (by decide), if_pos rfl, List.cons_append, ws_white_head hw (head_delim h1)]
    have := ih n r (by simp at hn ⊢; omega)
    rw [List.head?_cons, if_neg (fun e => by cases e; exact h2 rfl)]
    rw [List.cons_append] at this
    rw [this]
    rfl
  | @emptyObj w hw =>
    intro n r hn hr
    obtain ⟨n, rfl⟩ : ∃ m, n = m + 1 := ⟨n - 1, by omega⟩
    rw [show '{' :: w ++ ['}'] ++ r = '{' :: (w ++ '}' :: r) by simp]
    rw [value, if_neg (by decide), if_neg (by decide), if_pos rfl, ws_white_head hw (head_delim (by decide)), List.head?_cons, if_pos rfl]
    rfl
  | @obj fs w t hw ht ih =>
    intro n r hn hr
    obtain ⟨n, rfl⟩ : ∃ m, n = m + 1 := ⟨n - 1, by omega⟩
    rw [show '{' :: w ++ t ++ ['}'] ++ r = '{' :: (w ++ (t ++ '}' :: r)) by simp]
    obtain ⟨c, t', rfl, hc⟩ := item_head ht
    obtain ⟨h1, -, h2⟩ := head_notWs c hc
    rw [value, if_neg (by decide), if_neg (by decide), if_pos rfl, List.cons_append, ws_white_head hw (head_delim h1)]
    have := ih n r (by simp at hn ⊢; omega)
    rw [List.head?_cons, if_neg (fun e => by cases e; exact h2 rfl)]
    rw [List.cons_append] at this
    rw [this]
    rfl
  | @element v t w _ hw ih =>
    intro n r hn
    obtain ⟨n, rfl⟩ : ∃ m, n = m + 1 := ⟨n - 1, by omega⟩
    rw [elements, List.append_assoc, ih n _ (by simp at hn; omega) (stops_ws hw (by decide) _)]
    simp only [Option.bind_eq_bind, Option.bind_some]
    rw [ws_white_head hw (head_delim (by decide))]
    rfl
  | @elements v vs t w w' ts _ hw hw' ht ihv ihs =>
    intro n r hn
    obtain ⟨n, rfl⟩ : ∃ m, n = m + 1 := ⟨n - 1, by omega⟩
    rw [show t ++ w ++ ',' :: w' ++ ts ++ ']' :: r = t ++ (w ++ ',' :: (w' ++ (ts ++ ']' :: r))) by simp]
    rw [elements, ihv n _ (by simp at hn; omega) (stops_ws hw (by decide) _)]
    simp only [Option.bind_eq_bind, Option.bind_some]
    rw [ws_white_head hw (head_delim (by decide))]
    show ((elements n (ws (w' ++ (ts ++ ']' :: r)))).bind fun a => some (v :: a.1, a.2)) = _
    have := ihs n r (by simp at hn; omega)
    obtain ⟨c, t', rfl, hc⟩ := item_head ht
    rw [List.cons_append] at this ⊢
    rw [ws_white_head hw' (head_delim (head_notWs c hc).1), this]
    rfl
  | @member k v tk w w' t w'' hk hw hw' ht hw'' ih =>
    intro n r hn
    obtain ⟨n, rfl⟩ : ∃ m, n = m + 1 := ⟨n - 1, by omega⟩
    rw [show '"' :: tk ++ '"' :: w ++ ':' :: w' ++ t ++ w'' ++ '}' :: r = '"' :: (tk ++ '"' :: (w ++ ':' :: (w' ++ (t ++ (w'' ++ '}' :: r))))) by simp]
    rw [members, string_complete hk _ _ (by simp; omega)]
    simp only [Option.bind_eq_bind, Option.bind_some]
    rw [ws_white_head hw (head_delim (by decide))]
    show ((value n (ws (w' ++ (t ++ (w'' ++ '}' :: r))))).bind fun a => match ws a.2 with
      | '}' :: r => some ([(k, a.1)], r)
      | ',' :: r => (members n (ws r)).bind fun b => some ((k, a.1) :: b.1, b.2)
      | _ => none) = _
    have := ih n (w'' ++ '}' :: r) (by simp at hn; omega) (stops_ws hw'' (by decide) _)
    obtain ⟨c, t', rfl, hc⟩ := item_head ht
    rw [List.cons_append] at this ⊢
    rw [ws_white_head hw' (head_delim (head_notWs c hc).1), this]
    simp only [Option.bind_some]
    rw [ws_white_head hw'' (head_delim (by decide))]
    rfl
  | @members k v fs tk w w' t w'' w3 ts hk hw hw' ht hw'' hw3 hts ih ihs =>
    intro n r hn
    obtain ⟨n, rfl⟩ : ∃ m, n = m + 1 := ⟨n - 1, by omega⟩
    rw [show '"' :: tk ++ '"' :: w ++ ':' :: w' ++ t ++ w'' ++ ',' :: w3 ++ ts ++ '}' :: r
      = '"' :: (tk ++ '"' :: (w ++ ':' :: (w' ++ (t ++ (w'' ++ ',' :: (w3 ++ (ts ++ '}' :: r))))))) by simp]
    rw [members, string_complete hk _ _ (by simp; omega)]
    simp only [Option.bind_eq_bind, Option.bind_some]
    rw [ws_white_head hw (head_delim (by decide))]
    show ((value n (ws (w' ++ (t ++ (w'' ++ ',' :: (w3 ++ (ts ++ '}' :: r))))))).bind fun a => match ws a.2 with
      | '}' :: r => some ([(k, a.1)], r)
      | ',' :: r => (members n (ws r)).bind fun b => some ((k, a.1) :: b.1, b.2)
      | _ => none) = _
    have h1 := ih n (w'' ++ ',' :: (w3 ++ (ts ++ '}' :: r))) (by simp at hn; omega) (stops_ws hw'' (by decide) _)
    have h2 := ihs n r (by simp at hn; omega)
    obtain ⟨c, t', rfl, hc⟩ := item_head ht
    obtain ⟨c', ts', rfl, hc'⟩ := item_head hts
    rw [List.cons_append] at h1 h2 ⊢
    rw [ws_white_head hw' (head_delim (head_notWs c hc).1), h1]
    simp only [Option.bind_some]
    rw [ws_white_head hw'' (head_delim (by decide))]
    show ((members n (ws (w3 ++ (c' :: ts' ++ '}' :: r)))).bind fun b => some ((k, v) :: b.1, b.2)) = _
    rw [List.cons_append, ws_white_head hw3 (head_delim (head_notWs c' hc').1), h2]
    rfl

/-- The reader of JSON accepts exactly the JSON texts. -/
theorem parse_iff {s : Str} {v : Json} : parse s = some v ↔ JsonText v s := by
  constructor
  · intro h
    unfold parse at h
    split at h
    · next v' r heq =>
      split at h
      · next hr =>
        cases h
        obtain ⟨t, ht, e⟩ := (sound _).1 _ _ _ heq
        obtain ⟨w, hw, hs⟩ := ws_split s
        obtain ⟨w', hw', hs'⟩ := ws_split r
        rw [hr, List.append_nil] at hs'
        exact ⟨w, t, w', hw, ht, hw', by rw [hs, e, ← hs']; simp⟩
      · cases h
    · cases h
  · rintro ⟨w, t, w', hw, ht, hw', rfl⟩
    have hst : Stops w' := by
      intro c hc
      rcases w' with _ | ⟨y, w'⟩
      · cases hc
      · cases hc
        rcases hw' c (by simp) with rfl | rfl | rfl | rfl <;> decide
    have h1 := complete ht (2 * (w ++ t ++ w').length + 2) w' (by simp; omega) hst
    obtain ⟨c, t', rfl, hc⟩ := item_head ht
    unfold parse
    rw [List.append_assoc] at h1 ⊢
    rw [List.cons_append] at h1 ⊢
    rw [ws_white_head hw (head_delim (head_notWs c hc).1), h1]
    dsimp only
    have : ws w' = [] := by
      have := ws_white hw' []
      rw [List.append_nil] at this
      rw [this]; rfl
    rw [if_pos this]

end JsonProof
end TG
