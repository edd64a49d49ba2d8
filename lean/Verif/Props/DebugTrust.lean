/-
Property C131: what is printed of trusts, certificates and times identifies them.
-/
import Verif.Model.DebugTrust
import Verif.Model.ErrorText
import Verif.Proofs.Codec
import Verif.Spec.Toy

namespace TG

namespace Spec

def isDigit (c : Char) : Bool := decide (c ∈ "0123456789".toList)

/-- The number that decimal digits spell. -/
def decimal (s : Str) : Nat := s.foldl (fun n c => 10 * n + (c.toNat - 48)) 0

/-- How many nanoseconds a unit has. -/
def unitNanos (u : Str) : Option Nat :=
  if u = "s".toList then some 1000000000 else if u = "ms".toList then some 1000000 else if u = "µs".toList then some 1000
  else if u = "ns".toList then some 1 else none

/-- A time as people read it, in nanoseconds: digits, perhaps a point and more digits, and a unit. -/
def readTime (s : Str) : Option Nat :=
  let whole := s.takeWhile isDigit
  let rest := s.dropWhile isDigit
  let fraction := if rest.head? = some '.' then rest.tail.takeWhile isDigit else []
  let unit := if rest.head? = some '.' then rest.tail.dropWhile isDigit else rest
  (unitNanos unit).map (fun m => decimal (whole ++ fraction) * m / 10 ^ fraction.length)

end Spec

namespace DebugTime
open Spec

theorem ofDigits_foldl (ds : List Nat) (a : Nat) : ds.foldl (fun a d => a * 10 + d) a = a * 10 ^ ds.length + Base58.ofDigits 10 ds := by
  induction ds generalizing a with
  | nil => simp [Base58.ofDigits]
  | cons d ds ih =>
    unfold Base58.ofDigits
    rw [List.foldl_cons, List.foldl_cons, ih, ih (0 * 10 + d), List.length_cons, Nat.pow_succ]
    rw [Nat.add_mul, Nat.zero_mul, Nat.zero_add, Nat.mul_assoc, Nat.mul_comm 10, Nat.add_assoc]

theorem ofDigits_append (xs ys : List Nat) : Base58.ofDigits 10 (xs ++ ys) = Base58.ofDigits 10 xs * 10 ^ ys.length + Base58.ofDigits 10 ys := by
  conv_lhs => unfold Base58.ofDigits
  rw [List.foldl_append, ofDigits_foldl]
  rfl

theorem ofDigits_cons (d : Nat) (ds : List Nat) : Base58.ofDigits 10 (d :: ds) = d * 10 ^ ds.length + Base58.ofDigits 10 ds := by
  rw [show d :: ds = [d] ++ ds from rfl, ofDigits_append]
  simp [Base58.ofDigits]

theorem fractionDigits_spec (n : Nat) : ∀ (k f : Nat), k ≤ n → f < 10 ^ k → ∀ divisor, (k = 0 ∨ divisor = 10 ^ (k - 1)) →
    (∀ d ∈ fractionDigits n f divisor, d < 10) ∧ (fractionDigits n f divisor).length ≤ k ∧
      Base58.ofDigits 10 (fractionDigits n f divisor) * 10 ^ (k - (fractionDigits n f divisor).length) = f := by
  induction n with
  | zero =>
    intro k f hk hf divisor _
    obtain rfl : k = 0 := by omega
    obtain rfl : f = 0 := by simpa using hf
    simp [fractionDigits, Base58.ofDigits]
  | succ n ih =>
    intro k f hk hf divisor hd
    unfold fractionDigits
    by_cases h0 : f = 0
    · simp [h0, Base58.ofDigits]
    · rw [if_neg h0]
      obtain ⟨k, rfl⟩ : ∃ j, k = j + 1 := ⟨k - 1, by rcases k with _ | k; · simp at hf; omega
                                                     · simp⟩
      have hd : divisor = 10 ^ k := by simpa using hd
      subst hd
      have hpos : 0 < 10 ^ k := Nat.pow_pos (by omega)
      obtain ⟨i1, i2, i3⟩ := ih k (f % 10 ^ k) (by omega) (Nat.mod_lt _ hpos) (10 ^ k / 10) (by
        rcases k with _ | k
        · exact .inl rfl
        · right; simp [Nat.pow_succ])
      refine ⟨?_, by simpa using i2, ?_⟩
      · intro d h
        rcases List.mem_cons.mp h with rfl | h
        · rw [Nat.div_lt_iff_lt_mul hpos]; rw [Nat.pow_succ] at hf; omega
        · exact i1 d h
      · rw [ofDigits_cons, List.length_cons, Nat.add_sub_add_right, Nat.add_mul, i3, Nat.mul_assoc, ← Nat.pow_add, Nat.add_sub_cancel' i2]
        exact Nat.div_add_mod' f _

theorem char_toNat (d : Nat) (h : d < 10) : (Char.ofNat (48 + d)).toNat - 48 = d ∧ isDigit (Char.ofNat (48 + d)) = true := by
  revert d; decide +kernel

theorem decimal_chars (ds : List Nat) (h : ∀ d ∈ ds, d < 10) : decimal (ds.map fun d => Char.ofNat (48 + d)) = Base58.ofDigits 10 ds := by
  have : ∀ a, (ds.map fun d => Char.ofNat (48 + d)).foldl (fun n c => 10 * n + (c.toNat - 48)) a = ds.foldl (fun a d => a * 10 + d) a := by
    induction ds with
    | nil => intro a; rfl
    | cons d ds ih =>
      intro a
      rw [List.map_cons, List.foldl_cons, List.foldl_cons, (char_toNat d (h d (by simp))).1, ih (fun x hx => h x (by simp [hx])), Nat.mul_comm]
  exact this 0

theorem showU64_digits (x : UInt64) : ∃ ds : List Nat, (∀ d ∈ ds, d < 10) ∧ showU64 x = ds.map (fun d => Char.ofNat (48 + d)) ∧ Base58.ofDigits 10 ds = x.toNat := by
  unfold showU64
  split
  · next h => exact ⟨[0], by simp, by decide, by rw [h]; rfl⟩
  · exact ⟨_, Base58.digits_lt (by omega) _, rfl, Base58.ofDigits_digits (by omega) _⟩

theorem takeWhile_digits {s r : Str} (hs : ∀ c ∈ s, isDigit c = true) (hr : ∀ c, r.head? = some c → isDigit c = false) :
    (s ++ r).takeWhile isDigit = s ∧ (s ++ r).dropWhile isDigit = r := by
  induction s with
  | nil =>
    rcases r with _ | ⟨c, r⟩
    · exact ⟨rfl, rfl⟩
    · simp [hr c rfl]
  | cons c s ih =>
    obtain ⟨i1, i2⟩ := ih (fun x hx => hs x (by simp [hx]))
    simp [hs c (by simp), i1, i2]

theorem unit_head {u : Str} {m : Nat} (h : unitNanos u = some m) : ∃ c r, u = c :: r ∧ isDigit c = false ∧ c ≠ '.' := by
  unfold unitNanos at h
  split at h
  · next e => exact ⟨_, _, e, by decide, by decide⟩
  split at h
  · next e => exact ⟨_, _, e, by decide, by decide⟩
  split at h
  · next e => exact ⟨_, _, e, by decide, by decide⟩
  split at h
  · next e => exact ⟨_, _, e, by decide, by decide⟩
  · exact absurd h (by simp)

theorem readTime_fmtDecimal {integer f divisor k : Nat} {u : Str} (hi : integer < 2 ^ 64) (hk : k ≤ 9) (hf : f < 10 ^ k)
    (hd : k = 0 ∨ divisor = 10 ^ (k - 1)) (hu : unitNanos u = some (10 ^ k)) :
    readTime (fmtDecimal integer f divisor u) = some (integer * 10 ^ k + f) := by
  obtain ⟨h1, h2, h3⟩ := fractionDigits_spec 9 k f hk hf divisor hd
  obtain ⟨ds, g1, g2, g3⟩ := showU64_digits (UInt64.ofNat integer)
  rw [UInt64.toNat_ofNat_of_lt' hi] at g3
  obtain ⟨c, r, rfl, hc, hcd⟩ := unit_head hu
  unfold fmtDecimal
  generalize fractionDigits 9 f divisor = fs at h1 h2 h3 ⊢
  have hds : ∀ c ∈ ds.map (fun d => Char.ofNat (48 + d)), isDigit c = true := by
    intro c hc
    obtain ⟨d, hd, rfl⟩ := List.mem_map.mp hc
    exact (char_toNat d (g1 d hd)).2
  have hfs : ∀ c ∈ fs.map (fun d => Char.ofNat (48 + d)), isDigit c = true := by
    intro c hc
    obtain ⟨d, hd, rfl⟩ := List.mem_map.mp hc
    exact (char_toNat d (h1 d hd)).2
  have hval : (Base58.ofDigits 10 ds * 10 ^ fs.length + Base58.ofDigits 10 fs) * 10 ^ k / 10 ^ fs.length = integer * 10 ^ k + f := by
    rw [show 10 ^ k = 10 ^ (k - fs.length) * 10 ^ fs.length from by rw [← Nat.pow_add, Nat.sub_add_cancel h2], ← Nat.mul_assoc,
      Nat.mul_div_cancel _ (Nat.pow_pos (by omega)), Nat.add_mul, h3, g3, Nat.mul_assoc, Nat.mul_comm (10 ^ fs.length)]
  by_cases hn : fs = []
  · subst hn
    simp only [if_true, List.append_nil]
    rw [g2]
    obtain ⟨t1, t2⟩ := takeWhile_digits (r := c :: r) hds (by simp [hc])
    unfold readTime
    simp only [t1, t2, List.head?_cons, Option.some.injEq, hcd, if_false, hu, Option.map_some, List.append_nil, List.length_nil, Nat.pow_zero, Nat.div_one]
    rw [decimal_chars _ g1, g3]
    have : f = 0 := by rw [← h3]; simp [Base58.ofDigits]
    rw [this, Nat.add_zero]
  · simp only [if_neg hn, List.append_assoc]
    rw [g2]
    obtain ⟨t1, t2⟩ := takeWhile_digits (r := '.' :: (fs.map (fun d => Char.ofNat (48 + d)) ++ c :: r)) hds (by
      intro c hc; simp only [List.head?_cons, Option.some.injEq] at hc; subst hc; decide)
    obtain ⟨t3, t4⟩ := takeWhile_digits (r := c :: r) hfs (by simp [hc])
    unfold readTime
    simp only [List.cons_append, t1, t2, List.head?_cons, if_true, List.tail_cons, t3, t4, hu, Option.map_some, List.length_map]
    rw [← List.map_append, decimal_chars _ (by intro d hd; rcases List.mem_append.mp hd with h | h; exacts [g1 d h, h1 d h]), ofDigits_append, hval]

end DebugTime

open DebugTime

/-- **C131**, times: what `{:?}` prints for a duration is, read as a number with a unit, exactly this duration, to the nanosecond. -/
theorem C131_time (d : Dur) : Spec.readTime (debugDuration d) = some d.total := by
  have hn := d.nanos.isLt
  unfold debugDuration Dur.total
  split
  · rw [readTime_fmtDecimal (k := 9) d.secs.toNat_lt (by omega) (by simp) (by simp) (by decide)]
  · next h =>
    rw [show d.secs.toNat = 0 by omega, Nat.zero_mul, Nat.zero_add]
    split
    · rw [readTime_fmtDecimal (k := 6) (by omega) (by omega) (by omega) (by simp) (by decide)]
      congr 1; omega
    split
    · rw [readTime_fmtDecimal (k := 3) (by omega) (by omega) (by omega) (by simp) (by decide)]
      congr 1; omega
    · rw [readTime_fmtDecimal (k := 0) (by omega) (by omega) (by omega) (by simp) (by decide)]
      simp

namespace DebugTime

theorem duration_inj {d d' : Dur} (h : debugDuration d = debugDuration d') : d = d' := by
  have h1 := C131_time d
  rw [h, C131_time d', Option.some.injEq] at h1
  have h2 := d.nanos.isLt
  have h3 := d'.nanos.isLt
  unfold Dur.total at h1
  obtain ⟨a, b⟩ := d
  obtain ⟨a', b'⟩ := d'
  dsimp only at h1 h2 h3
  obtain rfl : a = a' := UInt64.toNat_inj.mp (by omega)
  obtain rfl : b = b' := Fin.ext (by omega)
  rfl

/-- The characters of a time: digits, a point and letters. -/
theorem duration_chars (d : Dur) : ∀ c ∈ debugDuration d, c ∈ "0123456789.smµn".toList := by
  have key : ∀ (i f v : Nat) (u : Str), (∃ k, k ≤ 9 ∧ f < 10 ^ k ∧ (k = 0 ∨ v = 10 ^ (k - 1))) → (∀ c ∈ u, c ∈ "smµn".toList) →
      ∀ c ∈ fmtDecimal i f v u, c ∈ "0123456789.smµn".toList := by
    rintro i f v u ⟨k, hk, hf, hv⟩ hu c hc
    have digit : ∀ d, d < 10 → Char.ofNat (48 + d) ∈ "0123456789.smµn".toList := by decide +kernel
    obtain ⟨h1, -, -⟩ := fractionDigits_spec 9 k f hk hf v hv
    obtain ⟨ds, g1, g2, -⟩ := showU64_digits (UInt64.ofNat i)
    unfold fmtDecimal at hc
    rw [g2] at hc
    rcases List.mem_append.mp hc with hc | hc
    · rcases List.mem_append.mp hc with hc | hc
      · obtain ⟨d, hd, rfl⟩ := List.mem_map.mp hc
        exact digit d (g1 d hd)
      · split at hc
        · simp at hc
        · rcases List.mem_cons.mp hc with rfl | hc
          · decide
          · obtain ⟨d, hd, rfl⟩ := List.mem_map.mp hc
            exact digit d (h1 d hd)
    · have h2 : ∀ c ∈ "smµn".toList, c ∈ "0123456789.smµn".toList := by decide
      exact h2 c (hu c hc)
  have hn := d.nanos.isLt
  unfold debugDuration
  split
  · exact key _ _ _ _ ⟨9, by omega, by simp, by simp⟩ (by decide)
  split
  · exact key _ _ _ _ ⟨6, by omega, by omega, by simp⟩ (by decide)
  split
  · exact key _ _ _ _ ⟨3, by omega, by omega, by simp⟩ (by decide)
  · exact key _ _ _ _ ⟨0, by omega, by omega, by simp⟩ (by decide)

theorem split_inj {a b x y : Str} {c : Char} (ha : c ∉ a) (hb : c ∉ b) (h : a ++ c :: x = b ++ c :: y) : a = b ∧ x = y := by
  induction a generalizing b with
  | nil =>
    rcases b with _ | ⟨d, b⟩
    · exact ⟨rfl, (List.cons.inj h).2⟩
    · obtain ⟨rfl, -⟩ := List.cons.inj h
      exact absurd (by simp) hb
  | cons d a ih =>
    rcases b with _ | ⟨e, b⟩
    · obtain ⟨rfl, -⟩ := List.cons.inj h
      exact absurd (by simp) ha
    · obtain ⟨rfl, h'⟩ := List.cons.inj h
      obtain ⟨rfl, rfl⟩ := ih (fun h => ha (by simp [h])) (fun h => hb (by simp [h])) h'
      exact ⟨rfl, rfl⟩

theorem duration_clean (d : Dur) {c : Char} (h : c ∉ "0123456789.smµn".toList) : c ∉ debugDuration d := fun hc => h (duration_chars d c hc)

theorem base58_clean (b : Bytes) {c : Char} (h : c ∉ Base58.alphabet) : c ∉ Base58.encode b := fun hc => h (Base58.encode_chars b c hc)

variable [Env]

/-- What follows the first name in the text of a trust. -/
def after (t : Trust) : Str :=
  " expires_at: ".toList ++ (debugDuration t.expiresAt ++ ',' :: (" signature: ".toList ++ (Base58.encode t.signature.encode ++ ',' ::
    (" issued_at: ".toList ++ (debugDuration t.issuedAt ++ ' ' :: "}".toList)))))

theorem debugTrust_eq (t : Trust) : debugTrust t = "Trust { issued_for: ".toList ++ (Base58.encode t.issuedFor.encode ++ ',' :: after t) := by
  unfold debugTrust after
  simp only [show ", expires_at: ".toList = ',' :: " expires_at: ".toList from rfl, show ", signature: ".toList = ',' :: " signature: ".toList from rfl,
    show ", issued_at: ".toList = ',' :: " issued_at: ".toList from rfl, show " }".toList = ' ' :: "}".toList from rfl, List.append_assoc, List.cons_append]

/-- Two texts that begin with a trust begin with the same one. -/
theorem debugTrust_append {t t' : Trust} {x y : Str} (h : debugTrust t ++ x = debugTrust t' ++ y) : t = t' ∧ x = y := by
  simp only [debugTrust_eq, List.append_assoc] at h
  replace h := List.append_cancel_left h
  unfold after at h
  simp only [List.append_assoc, List.cons_append] at h
  obtain ⟨h1, h⟩ := split_inj (c := ',') (base58_clean _ (by decide)) (base58_clean _ (by decide)) h
  obtain ⟨h2, h⟩ := split_inj (duration_clean _ (by decide)) (duration_clean _ (by decide)) (List.append_cancel_left h)
  obtain ⟨h3, h⟩ := split_inj (base58_clean _ (by decide)) (base58_clean _ (by decide)) (List.append_cancel_left h)
  obtain ⟨h4, h⟩ := split_inj (duration_clean _ (by decide)) (duration_clean _ (by decide)) (List.append_cancel_left h)
  refine ⟨?_, List.append_cancel_left h⟩
  obtain ⟨a, b, c, d⟩ := t
  obtain ⟨a', b', c', d'⟩ := t'
  dsimp only at h1 h2 h3 h4
  rw [PublicKey.encode_inj (Base58.encode_inj h1), duration_inj h2, Signature.encode_inj (Base58.encode_inj h3), duration_inj h4]

theorem debugTrusts_cons (t t' : Trust) (ts : List Trust) : debugTrusts (t :: t' :: ts) = debugTrust t ++ (',' :: ' ' :: debugTrusts (t' :: ts)) := by
  rw [debugTrusts, List.append_assoc]
  · rfl
  · simp

theorem debugTrusts_inj : ∀ {ts ts' : List Trust}, debugTrusts ts ++ ']' :: " }".toList = debugTrusts ts' ++ ']' :: " }".toList → ts = ts'
  | [], [], _ => rfl
  | [], t :: ts, h => by
    exfalso
    rcases ts with _ | ⟨t', ts⟩
    · rw [debugTrusts, debugTrusts, debugTrust_eq] at h; simp at h
    · rw [debugTrusts_cons, debugTrusts, debugTrust_eq] at h; simp at h
  | t :: ts, [], h => by
    exfalso
    rcases ts with _ | ⟨t', ts⟩
    · rw [debugTrusts, debugTrusts, debugTrust_eq] at h; simp at h
    · rw [debugTrusts_cons, debugTrusts, debugTrust_eq] at h; simp at h
  | [t], [t'], h => by
    rw [debugTrusts, debugTrusts] at h
    rw [(debugTrust_append h).1]
  | [t], t' :: u' :: ts', h => by
    exfalso
    rw [debugTrusts, debugTrusts_cons, List.append_assoc] at h
    have := (debugTrust_append h).2
    simp at this
  | t :: u :: ts, [t'], h => by
    exfalso
    rw [debugTrusts, debugTrusts_cons, List.append_assoc] at h
    have := (debugTrust_append h).2
    simp at this
  | t :: u :: ts, t' :: u' :: ts', h => by
    rw [debugTrusts_cons, debugTrusts_cons, List.append_assoc, List.append_assoc] at h
    obtain ⟨rfl, h'⟩ := debugTrust_append h
    have h'' : debugTrusts (u :: ts) ++ ']' :: " }".toList = debugTrusts (u' :: ts') ++ ']' :: " }".toList :=
      List.append_cancel_left (as := [',', ' ']) h'
    rw [debugTrusts_inj h'']

end DebugTime

variable [Env]

/-- **C131**, trusts: different trusts print differently, also if they differ by a nanosecond. -/
theorem C131_trust {t t' : Trust} : debugTrust t = debugTrust t' ↔ t = t' :=
  ⟨fun h => (debugTrust_append (x := []) (y := []) (by rw [h])).1, fun h => by rw [h]⟩

/-- **C131**, certificates: different certificates print differently. -/
theorem C131_certificate {c c' : Certificate} : debugCertificate c = debugCertificate c' ↔ c = c' := by
  refine ⟨fun h => ?_, fun h => by rw [h]⟩
  unfold debugCertificate at h
  rw [List.append_assoc, List.append_assoc] at h
  obtain ⟨ts⟩ := c
  obtain ⟨ts'⟩ := c'
  have h : ts = ts' := debugTrusts_inj (List.append_cancel_left h)
  rw [h]

/-- **C131**, errors: when a trust is refused as expired, the text tells both times, to the nanosecond, and the first is before the second. -/
theorem C131_expired {t : Trust} {by_ : PublicKey} {now : Dur} (h : t.verify by_ now = .err .expired) :
    TrustError.Says .expired (expiredText t now) ∧
    ∃ expired current : Str, expiredText t now = "Trust is expired at: '".toList ++ expired ++ "', current time: '".toList ++ current ++ "'".toList ∧
      ∃ e n, Spec.readTime expired = some e ∧ Spec.readTime current = some n ∧ e = t.expiresAt.total ∧ n = now.total ∧ e < n := by
  refine ⟨.expired _ _, _, _, rfl, _, _, C131_time _, C131_time _, rfl, rfl, ?_⟩
  unfold Trust.verify at h
  split at h
  · next hlt => exact Dur.lt_iff.mp hlt
  · exfalso
    revert h
    cases KeyPair.verify by_ (Trust.signatureBytes t.issuedFor t.expiresAt t.issuedAt) t.signature <;> simp [Outcome.mapErr]

/-- **C131**, errors: texts for different times differ. -/
theorem C131_expired_text {t t' : Trust} {now now' : Dur} : expiredText t now = expiredText t' now' ↔ t.expiresAt = t'.expiresAt ∧ now = now' := by
  refine ⟨fun h => ?_, fun h => by unfold expiredText; rw [h.1, h.2]⟩
  unfold expiredText at h
  simp only [List.append_assoc] at h
  obtain ⟨h1, h⟩ := split_inj (c := '\'') (duration_clean _ (by decide)) (duration_clean _ (by decide)) (List.append_cancel_left h)
  obtain ⟨h2, -⟩ := split_inj (c := '\'') (duration_clean _ (by decide)) (duration_clean _ (by decide)) (List.append_cancel_left h)
  exact ⟨duration_inj h1, duration_inj h2⟩

end TG

namespace TG

/-- Some times as they are printed. -/
example : debugDuration ⟨1737828468, 0⟩ = "1737828468s".toList ∧ debugDuration ⟨2, 50000000⟩ = "2.05s".toList ∧ debugDuration ⟨0, 1500000⟩ = "1.5ms".toList ∧
    debugDuration ⟨0, 1001⟩ = "1.001µs".toList ∧ debugDuration ⟨0, 0⟩ = "0ns".toList := by decide +kernel

example : Spec.readTime "2.05s".toList = some 2050000000 ∧ Spec.readTime "1.5ms".toList = some 1500000 ∧ Spec.readTime "expired".toList = none := by decide +kernel

/-- A trust that is refused as expired. -/
example : (Toy.trust 1 2 10 5).verify (Toy.pk 1) (Toy.s 20) = .err .expired ∧
    expiredText (Toy.trust 1 2 10 5) (Toy.s 20) = "Trust is expired at: '10s', current time: '20s'".toList := by decide +kernel

end TG
