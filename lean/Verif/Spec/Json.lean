/-
The grammar of JSON texts, RFC 8259, as a relation between values and texts.
-/
import Verif.Model.Json

namespace TG
namespace Spec

/-- White space (RFC 8259, section 2). -/
def White (s : Str) : Prop := ∀ c ∈ s, c = ' ' ∨ c = '\n' ∨ c = '\t' ∨ c = '\r'

/-- One or more digits. -/
def Digits (s : Str) : Prop := s ≠ [] ∧ ∀ c ∈ s, c ∈ "0123456789".toList

/-- Numbers (RFC 8259, section 6): an integer part without superfluous zeros, perhaps after a minus sign and perhaps followed by a fraction and an exponent. -/
def NumberText (s : Str) : Prop :=
  ∃ minus int frac exp : Str, s = minus ++ int ++ frac ++ exp ∧ (minus = [] ∨ minus = ['-']) ∧
    (int = ['0'] ∨ Digits int ∧ int.head? ≠ some '0') ∧
    (frac = [] ∨ ∃ d, Digits d ∧ frac = '.' :: d) ∧
    (exp = [] ∨ ∃ e sign d, (e = 'e' ∨ e = 'E') ∧ (sign = [] ∨ sign = ['+'] ∨ sign = ['-']) ∧ Digits d ∧ exp = e :: sign ++ d)

/-- The value of a hexadecimal digit of either case. -/
def HexDigit (c : Char) (n : Nat) : Prop := n < 16 ∧ (c = ("0123456789abcdef".toList)[n]! ∨ c = ("0123456789ABCDEF".toList)[n]!)

/-- Four hexadecimal digits for a 16-bit number. -/
def Hex4 (t : Str) (u : Nat) : Prop :=
  ∃ a b c d w x y z, t = [a, b, c, d] ∧ HexDigit a w ∧ HexDigit b x ∧ HexDigit c y ∧ HexDigit d z ∧ u = w * 4096 + x * 256 + y * 16 + z

/-- A character and a way to write it in a string (RFC 8259, section 7). -/
inductive CharText : Char → Str → Prop
  | plain (c : Char) : 0x20 ≤ c.toNat → c ≠ '"' → c ≠ '\\' → CharText c [c]
  | quote : CharText '"' ['\\', '"']
  | backslash : CharText '\\' ['\\', '\\']
  | slash : CharText '/' ['\\', '/']
  | backspace : CharText (Char.ofNat 0x08) ['\\', 'b']
  | formFeed : CharText (Char.ofNat 0x0C) ['\\', 'f']
  | lineFeed : CharText (Char.ofNat 0x0A) ['\\', 'n']
  | carriageReturn : CharText (Char.ofNat 0x0D) ['\\', 'r']
  | tab : CharText (Char.ofNat 0x09) ['\\', 't']
  | unicode (c : Char) (t : Str) : Hex4 t c.toNat → CharText c ('\\' :: 'u' :: t)
  | surrogates (c : Char) (hi lo : Nat) (t t' : Str) : Hex4 t hi → Hex4 t' lo → 0xD800 ≤ hi → hi < 0xDC00 → 0xDC00 ≤ lo → lo < 0xE000 →
      c.toNat = 0x10000 + (hi - 0xD800) * 0x400 + (lo - 0xDC00) → CharText c ('\\' :: 'u' :: t ++ '\\' :: 'u' :: t')

/-- A string and a way to write it between the quotes. -/
inductive StringText : Str → Str → Prop
  | nil : StringText [] []
  | cons {c : Char} {t s ts : Str} : CharText c t → StringText s ts → StringText (c :: s) (t ++ ts)

/-- What the grammar is about: values, the inside of arrays and the inside of objects. -/
inductive Item
  | value (v : Json)
  | elements (vs : List Json)
  | members (fs : List (Str × Json))

/-- A value (or a part of one) and a way to write it (RFC 8259, sections 3 to 5). -/
inductive ItemText : Item → Str → Prop
  | null : ItemText (.value .null) "null".toList
  | true : ItemText (.value (.bool true)) "true".toList
  | false : ItemText (.value (.bool false)) "false".toList
  | num {t : Str} : NumberText t → ItemText (.value (.num t)) t
  | str {s t : Str} : StringText s t → ItemText (.value (.str s)) ('"' :: t ++ ['"'])
  | emptyArr {w : Str} : White w → ItemText (.value (.arr [])) ('[' :: w ++ [']'])
  | arr {vs : List Json} {w t : Str} : White w → ItemText (.elements vs) t → ItemText (.value (.arr vs)) ('[' :: w ++ t ++ [']'])
  | emptyObj {w : Str} : White w → ItemText (.value (.obj [])) ('{' :: w ++ ['}'])
  | obj {fs : List (Str × Json)} {w t : Str} : White w → ItemText (.members fs) t → ItemText (.value (.obj fs)) ('{' :: w ++ t ++ ['}'])
  | element {v : Json} {t w : Str} : ItemText (.value v) t → White w → ItemText (.elements [v]) (t ++ w)
  | elements {v : Json} {vs : List Json} {t w w' ts : Str} : ItemText (.value v) t → White w → White w' → ItemText (.elements vs) ts →
      ItemText (.elements (v :: vs)) (t ++ w ++ ',' :: w' ++ ts)
  | member {k : Str} {v : Json} {tk w w' t w'' : Str} : StringText k tk → White w → White w' → ItemText (.value v) t → White w'' →
      ItemText (.members [(k, v)]) ('"' :: tk ++ '"' :: w ++ ':' :: w' ++ t ++ w'')
  | members {k : Str} {v : Json} {fs : List (Str × Json)} {tk w w' t w'' w''' ts : Str} : StringText k tk → White w → White w' → ItemText (.value v) t →
      White w'' → White w''' → ItemText (.members fs) ts →
      ItemText (.members ((k, v) :: fs)) ('"' :: tk ++ '"' :: w ++ ':' :: w' ++ t ++ w'' ++ ',' :: w''' ++ ts)

/-- A JSON text of a value: the value with white space around it (RFC 8259, section 2). -/
def JsonText (v : Json) (s : Str) : Prop := ∃ w t w', White w ∧ ItemText (.value v) t ∧ White w' ∧ s = w ++ t ++ w'

end Spec
end TG
