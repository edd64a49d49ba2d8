/-
JSON as it is read by `serde_json::from_str` (/repo/distro/src/lib.rs:58-60) and written by `serde_json::to_string` and by `JSON.stringify`
(/repo/admin/index.ts:83).  Both libraries are outside the repository; they are modelled from RFC 8259 and their documentation.

Simplifications: `serde_json` reads a text into the target type at once, here a tree is read first.  Which texts are accepted is the same, except that it does
not look at the escapes of surrogates in parts that are ignored.  Its limit for the depth of nesting applies to what is not ignored, where the types of the
crate have depth five; so there is none here.
-/
import Verif.Model.Text

namespace TG

/-- A JSON value; a number is kept as it is written (serde_json, used by distro/src/lib.rs:59). -/
inductive Json where
  | null
  | bool (b : Bool)
  | num (text : Str)
  | str (s : Str)
  | arr (vs : List Json)
  | obj (fs : List (Str × Json))

namespace Json

/-- White space (serde_json `parse_whitespace`, used by distro/src/lib.rs:59). -/
def isWs (c : Char) : Bool := c = ' ' || c = '\n' || c = '\t' || c = '\r'

/-- Skipping white space (serde_json `parse_whitespace`, used by distro/src/lib.rs:59). -/
def ws (s : Str) : Str := s.dropWhile isWs

/-- A digit (serde_json `parse_integer`, used by distro/src/lib.rs:59). -/
def isDigit (c : Char) : Bool := '0' ≤ c && c ≤ '9'

/-- A hexadecimal digit (serde_json `decode_hex_escape`, used by distro/src/lib.rs:59). -/
def hexVal (c : Char) : Option Nat :=
  if '0' ≤ c ∧ c ≤ '9' then some (c.toNat - 48)
  else if 'a' ≤ c ∧ c ≤ 'f' then some (c.toNat - 87)
  else if 'A' ≤ c ∧ c ≤ 'F' then some (c.toNat - 55)
  else none

/-- Four hexadecimal digits (serde_json `decode_hex_escape`, used by distro/src/lib.rs:59). -/
def hex4 : Str → Option (Nat × Str)
  | a :: b :: c :: d :: r => do
    let a ← hexVal a
    let b ← hexVal b
    let c ← hexVal c
    let d ← hexVal d
    some (((a * 16 + b) * 16 + c) * 16 + d, r)
  | _ => none

/-- The escapes of one letter (serde_json `parse_escape`, used by distro/src/lib.rs:59). -/
def unescape (c : Char) : Option Char :=
  if c = '"' then some '"' else if c = '\\' then some '\\' else if c = '/' then some '/' else if c = 'b' then some (Char.ofNat 8)
  else if c = 'f' then some (Char.ofNat 12) else if c = 'n' then some '\n' else if c = 'r' then some '\r' else if c = 't' then some '\t' else none

/-- `\u` with the text after it: a character of the basic plane, or a pair of surrogates (serde_json `parse_unicode_escape`, used by distro/src/lib.rs:59). -/
def unicode (s : Str) : Option (Char × Str) := do
  let (u, r) ← hex4 s
  if u < 0xD800 ∨ 0xDFFF < u then some (Char.ofNat u, r)
  else if 0xDC00 ≤ u then none
  else
    match r with
    | '\\' :: 'u' :: r => do
      let (l, r) ← hex4 r
      if 0xDC00 ≤ l ∧ l ≤ 0xDFFF then some (Char.ofNat (0x10000 + (u - 0xD800) * 0x400 + (l - 0xDC00)), r) else none
    | _ => none

/-- A string after its opening quote (serde_json `parse_str`, used by distro/src/lib.rs:59); the number is fuel. -/
def string : Nat → Str → Option (Str × Str)
  | 0, _ => none
  | _ + 1, [] => none
  | n + 1, c :: r =>
    if c = '"' then some ([], r)
    else if c = '\\' then
      match r with
      | [] => none
      | e :: r =>
        if e = 'u' then do
          let (c, r) ← unicode r
          let (s, r) ← string n r
          some (c :: s, r)
        else do
          let c ← unescape e
          let (s, r) ← string n r
          some (c :: s, r)
    else if c.toNat < 0x20 then none
    else do
      let (s, r) ← string n r
      some (c :: s, r)

/-- At least one digit (serde_json `parse_decimal`, `parse_exponent`, used by distro/src/lib.rs:59). -/
def digits1 (s : Str) : Option (Str × Str) :=
  match s.takeWhile isDigit with
  | [] => none
  | d => some (d, s.dropWhile isDigit)

/-- The integer part: `0`, or digits that do not begin with `0` (serde_json `parse_integer`, used by distro/src/lib.rs:59). -/
def integer : Str → Option (Str × Str)
  | '0' :: r => some (['0'], r)
  | s => digits1 s

/-- The part after the point, if any (serde_json `parse_decimal`, used by distro/src/lib.rs:59). -/
def fraction : Str → Option (Str × Str)
  | '.' :: r => (digits1 r).map fun (d, r) => ('.' :: d, r)
  | s => some ([], s)

/-- The sign of an exponent, if any (serde_json `parse_exponent`, used by distro/src/lib.rs:59). -/
def sign : Str → Str × Str
  | '+' :: r => (['+'], r)
  | '-' :: r => (['-'], r)
  | s => ([], s)

/-- The exponent, if any (serde_json `parse_exponent`, used by distro/src/lib.rs:59). -/
def exponent : Str → Option (Str × Str)
  | c :: r =>
    if c = 'e' ∨ c = 'E' then (digits1 (sign r).2).map fun (d, r') => (c :: (sign r).1 ++ d, r')
    else some ([], c :: r)
  | [] => some ([], [])

/-- The minus sign, if any (serde_json `parse_any_value`, used by distro/src/lib.rs:59). -/
def minus : Str → Str × Str
  | '-' :: r => (['-'], r)
  | s => ([], s)

/-- A number (serde_json `parse_any_number`, `ignore_number`, used by distro/src/lib.rs:59). -/
def number (s : Str) : Option (Str × Str) := do
  let (i, r) ← integer (minus s).2
  let (f, r) ← fraction r
  let (e, r) ← exponent r
  some ((minus s).1 ++ i ++ f ++ e, r)

/-- The rest of `null`, `true` or `false` (serde_json `parse_ident`, used by distro/src/lib.rs:59). -/
def ident (rest : Str) (v : Json) (s : Str) : Option (Json × Str) := if s.take rest.length = rest then some (v, s.drop rest.length) else none

mutual

/-- A value, without white space before it (serde_json `parse_value`, `ignore_value`, used by distro/src/lib.rs:59); the number is fuel. -/
def value : Nat → Str → Option (Json × Str)
  | 0, _ => none
  | _ + 1, [] => none
  | n + 1, c :: r =>
    if c = '"' then (string (r.length + 1) r).map fun (s, r) => (.str s, r)
    else if c = '[' then
      if (ws r).head? = some ']' then some (.arr [], (ws r).tail) else (elements n (ws r)).map fun (vs, r) => (.arr vs, r)
    else if c = '{' then
      if (ws r).head? = some '}' then some (.obj [], (ws r).tail) else (members n (ws r)).map fun (fs, r) => (.obj fs, r)
    else if c = 'n' then ident "ull".toList (.null) r
    else if c = 't' then ident "rue".toList (.bool true) r
    else if c = 'f' then ident "alse".toList (.bool false) r
    else (number (c :: r)).map fun (t, r) => (.num t, r)

/-- The values of an array, with the closing bracket (serde_json `SeqAccess`, used by distro/src/lib.rs:59). -/
def elements : Nat → Str → Option (List Json × Str)
  | 0, _ => none
  | n + 1, s => do
    let (v, r) ← value n s
    match ws r with
    | ']' :: r => some ([v], r)
    | ',' :: r => do
      let (vs, r) ← elements n (ws r)
      some (v :: vs, r)
    | _ => none

/-- The fields of an object, with the closing brace (serde_json `MapAccess`, used by distro/src/lib.rs:59). -/
def members : Nat → Str → Option (List (Str × Json) × Str)
  | n + 1, '"' :: r => do
    let (k, r) ← string (r.length + 1) r
    match ws r with
    | ':' :: r => do
      let (v, r) ← value n (ws r)
      match ws r with
      | '}' :: r => some ([(k, v)], r)
      | ',' :: r => do
        let (fs, r) ← members n (ws r)
        some ((k, v) :: fs, r)
      | _ => none
    | _ => none
  | _, _ => none

end

/-- `serde_json::from_str` up to the target type (distro/src/lib.rs:59): one value and nothing but white space around it. -/
def parse (s : Str) : Option Json :=
  match value (2 * s.length + 2) (ws s) with
  | some (v, r) => if ws r = [] then some v else none
  | none => none

/-- A hexadecimal digit as it is written, in lower case (admin/index.ts:83). -/
def hexDigit (n : Nat) : Char := if n < 10 then Char.ofNat (48 + n) else Char.ofNat (87 + n)

/-- A character of a string as it is written (ECMA-262 `QuoteJSONString`, used by admin/index.ts:83; serde_json does the same). -/
def quoteChar (c : Char) : Str :=
  if c = '"' then ['\\', '"'] else if c = '\\' then ['\\', '\\'] else if c.toNat = 8 then ['\\', 'b'] else if c.toNat = 12 then ['\\', 'f']
  else if c = '\n' then ['\\', 'n'] else if c = '\r' then ['\\', 'r'] else if c = '\t' then ['\\', 't']
  else if c.toNat < 0x20 then ['\\', 'u', '0', '0', hexDigit (c.toNat / 16), hexDigit (c.toNat % 16)]
  else [c]

/-- A string as it is written (admin/index.ts:83). -/
def quote (s : Str) : Str := '"' :: s.flatMap quoteChar ++ ['"']

mutual

/-- `JSON.stringify` (admin/index.ts:83), `serde_json::to_string`: without white space. -/
def stringify : Json → Str
  | .null => "null".toList
  | .bool true => "true".toList
  | .bool false => "false".toList
  | .num t => t
  | .str s => quote s
  | .arr vs => '[' :: stringifyAll vs ++ [']']
  | .obj fs => '{' :: stringifyFields fs ++ ['}']

/-- The values of an array with commas between them (admin/index.ts:83). -/
def stringifyAll : List Json → Str
  | [] => []
  | [v] => stringify v
  | v :: w :: vs => stringify v ++ ',' :: stringifyAll (w :: vs)

/-- The fields of an object with commas between them (admin/index.ts:83). -/
def stringifyFields : List (Str × Json) → Str
  | [] => []
  | [(k, v)] => quote k ++ ':' :: stringify v
  | (k, v) :: f :: fs => quote k ++ ':' :: stringify v ++ ',' :: stringifyFields (f :: fs)

end

end Json

end TG
