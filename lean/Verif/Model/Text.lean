/-
The pieces of Rust's standard library used by the text formats of /repo: `u64::to_string`, `str::parse::<u64>` and `str::lines`
(trust-graph/src/trust.rs:227-232, 259-268; trust-graph/src/certificate.rs:296-338).
-/
import Verif.Base58

namespace TG

/-- Decimal digit of a character (for trust.rs:229). -/
def decDigit (c : Char) : Option Nat :=
  if '0' ≤ c ∧ c ≤ '9' then some (c.toNat - 48) else none

/-- `u64::to_string` (trust.rs:259-268). -/
def showU64 (x : UInt64) : Str :=
  if x.toNat = 0 then ['0'] else (Base58.digits 10 x.toNat).map (fun d => Char.ofNat (48 + d))

/-- `str::parse::<u64>` (trust.rs:229): an optional `+`, at least one decimal digit, value below 2^64. -/
def parseU64 (s : Str) : Option UInt64 :=
  let body := match s with
    | '+' :: r => r
    | _ => s
  if body = [] then none
  else match body.mapM decDigit with
    | none => none
    | some ds =>
      let n := Base58.ofDigits 10 ds
      if n < 2 ^ 64 then some (UInt64.ofNat n) else none

/-- For `str::lines` (certificate.rs:311): remove one trailing `\r` (given the line reversed). -/
def stripCr : Str → Str
  | '\r' :: r => r.reverse
  | r => r.reverse

/-- `str::lines` (certificate.rs:311): split at `\n`, drop a `\r` before the `\n`, no empty last line.  `acc` is the current line reversed. -/
def linesAux : Str → Str → List Str
  | acc, [] => if acc = [] then [] else [acc.reverse]
  | acc, '\n' :: s => stripCr acc :: linesAux [] s
  | acc, c :: s => linesAux (c :: acc) s

/-- `str::lines` (certificate.rs:311). -/
def lines (s : Str) : List Str := linesAux [] s

theorem decDigit_char (d : Nat) (h : d < 10) : decDigit (Char.ofNat (48 + d)) = some d := by
  revert d; decide +kernel

theorem mapM_decDigit (ds : List Nat) (h : ∀ d ∈ ds, d < 10) :
    (ds.map (fun d => Char.ofNat (48 + d))).mapM decDigit = some ds := by
  induction ds with
  | nil => rfl
  | cons d ds ih =>
    rw [List.map_cons, List.mapM_cons, decDigit_char d (h d (by simp)), ih (fun x hx => h x (by simp [hx]))]
    rfl

theorem showU64_ne_nil (x : UInt64) : showU64 x ≠ [] := by
  unfold showU64
  split
  · simp
  · next h =>
    intro h0
    rw [List.map_eq_nil_iff, Base58.digits_eq_nil_iff (by omega)] at h0
    exact h h0

theorem showU64_chars (x : UInt64) : ∀ c ∈ showU64 x, c ∈ "0123456789".toList := by
  have key : ∀ d, d < 10 → Char.ofNat (48 + d) ∈ "0123456789".toList := by decide +kernel
  unfold showU64
  split
  · simp
  · intro c hc
    obtain ⟨d, hd, rfl⟩ := List.mem_map.mp hc
    exact key d (Base58.digits_lt (by omega) _ d hd)

theorem parseU64_showU64 (x : UInt64) : parseU64 (showU64 x) = some x := by
  have hx : x.toNat < 2 ^ 64 := x.toNat_lt
  have hbody : (match showU64 x with | '+' :: r => r | _ => showU64 x) = showU64 x := by
    cases h : showU64 x with
    | nil => rfl
    | cons c r =>
      have hc : c ∈ "0123456789".toList := showU64_chars x c (by rw [h]; simp)
      have : c ≠ '+' := by rintro rfl; revert hc; decide
      split
      · next heq => cases heq; exact absurd rfl this
      · rfl
  unfold parseU64
  simp only [hbody, if_neg (showU64_ne_nil x)]
  by_cases h : x.toNat = 0
  · have : x = 0 := UInt64.toNat.inj h
    subst this; decide +kernel
  · unfold showU64
    rw [if_neg h, mapM_decDigit _ (Base58.digits_lt (by omega) _)]
    simp only [Base58.ofDigits_digits (show 2 ≤ 10 by omega), if_pos hx]
    simp

theorem linesAux_line (acc l : Str) (rest : Str) (h : '\n' ∉ l) :
    linesAux acc (l ++ '\n' :: rest) = stripCr (l.reverse ++ acc) :: linesAux [] rest := by
  induction l generalizing acc with
  | nil => rfl
  | cons c l ih =>
    have hc : c ≠ '\n' := fun e => h (by simp [e])
    have : linesAux acc (c :: l ++ '\n' :: rest) = linesAux (c :: acc) (l ++ '\n' :: rest) := by
      rw [List.cons_append, linesAux]
      intro e; exact hc e
    rw [this, ih _ (fun e => h (by simp [e]))]
    simp

/-- A line without line breaks or carriage returns is read back as it was written. -/
theorem lines_line (l rest : Str) (h : '\n' ∉ l) (h' : '\r' ∉ l) :
    lines (l ++ '\n' :: rest) = l :: lines rest := by
  unfold lines
  rw [linesAux_line _ _ _ h, List.append_nil]
  congr 1
  cases hl : l.reverse with
  | nil => simpa [stripCr] using hl
  | cons c r =>
    have hmem : c ∈ l := by rw [← List.mem_reverse, hl]; simp
    have : c ≠ '\r' := by rintro rfl; exact h' hmem
    unfold stripCr
    split
    · next heq => cases heq; exact absurd rfl this
    · rw [← hl, List.reverse_reverse]

end TG
