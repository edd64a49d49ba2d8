/-
Specification for C145: which texts are certificates.
-/
import Verif.Model.Certificate

namespace TG.Spec

/-- The text `s` has the lines `ls`: each ends with a line feed, or a carriage return and a line feed; the last may lack the end. -/
inductive Lines : List Str → Str → Prop
  | nil : Lines [] []
  | lf {l : Str} {ls : List Str} {s : Str} (h : '\n' ∉ l) (hr : ¬ ['\r'] <:+ l) (hs : Lines ls s) : Lines (l :: ls) (l ++ ['\n'] ++ s)
  | crlf {l : Str} {ls : List Str} {s : Str} (h : '\n' ∉ l) (hs : Lines ls s) : Lines (l :: ls) (l ++ ['\r', '\n'] ++ s)
  | last {l : Str} (h : '\n' ∉ l) (h0 : l ≠ []) : Lines [l] l

/-- The text is digits with the value `n`. -/
inductive DecDigits : Nat → Str → Prop
  | one {c : Char} {d : Nat} (hd : d < 10) (hc : c.toNat = 48 + d) : DecDigits d [c]
  | more {n d : Nat} {s : Str} {c : Char} (hs : DecDigits n s) (hd : d < 10) (hc : c.toNat = 48 + d) : DecDigits (10 * n + d) (s ++ [c])

/-- The text is the number `n` in decimal digits, possibly with leading zeros or a plus sign. -/
def Numeral (n : Nat) (s : Str) : Prop := DecDigits n s ∨ ∃ r, s = '+' :: r ∧ DecDigits n r

variable [Env]

/-- The lines say these trusts: four each, with the key and the signature in base 58 and the times in seconds. -/
inductive Says : List Trust → List Str → Prop
  | nil : Says [] []
  | cons {t : Trust} {ts : List Trust} {e i : Str} {ls : List Str} (hw : t.expiresAt.nanos = 0 ∧ t.issuedAt.nanos = 0)
      (he : Numeral t.expiresAt.secs.toNat e) (hi : Numeral t.issuedAt.secs.toNat i) (hs : Says ts ls) :
      Says (t :: ts) (Base58.encode t.issuedFor.encode :: Base58.encode t.signature.encode :: e :: i :: ls)

end TG.Spec
