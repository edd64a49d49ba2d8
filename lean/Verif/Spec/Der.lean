/-
What a DER encoded object is, and an EC private key as RFC 5915 has it, as far as the key reader looks: a SEQUENCE whose second element is an OCTET
STRING with the secret.
-/
import Verif.Basic

namespace TG.Spec.Der

/-- The number written in base 256, most significant byte first. -/
def value (be : Bytes) : Nat := be.foldl (fun a d => a * 256 + d.toNat) 0

/-- The bytes denote a length: one byte below 128, or the number of bytes that follow, plus 128, and these bytes. -/
inductive Length : Bytes → Nat → Prop
  | short (b : UInt8) : b.toNat < 128 → Length [b] b.toNat
  | long (b : UInt8) (be : Bytes) : b.toNat = 128 + be.length → be.length ≤ 8 → Length (b :: be) (value be)

/-- The bytes are one object with this tag and content. -/
def Object (tag : UInt8) (content bytes : Bytes) : Prop :=
  ∃ l, Length l content.length ∧ bytes = tag :: (l ++ content)

/-- The bytes are objects, one after the other. -/
inductive Objects : Bytes → Prop
  | nil : Objects []
  | cons {t : UInt8} {c o rest : Bytes} : Object t c o → Objects rest → Objects (o ++ rest)

/-- The bytes begin with a SEQUENCE whose second element is an OCTET STRING with the secret. -/
def EcPrivateKey (der secret : Bytes) : Prop :=
  ∃ body outer junk t c version key rest,
    Object 0x30 body outer ∧ der = outer ++ junk ∧
    Object t c version ∧ Object 0x04 secret key ∧ Objects rest ∧ body = version ++ (key ++ rest)

end TG.Spec.Der
