/-
Specification for C146: the formats in which keys, signatures, trusts and certificates are exchanged, byte by byte.
-/
import Verif.Model.Certificate
import Verif.Model.Dto
import Verif.Model.Serde

namespace TG.Spec.Wire

/-- The number with these digits to base 256, the least one first. -/
def value : Bytes → Nat
  | [] => 0
  | b :: bs => b.toNat + 256 * value bs

/-- A time: its seconds in eight bytes, the least one first. -/
def Secs (d : Dur) (bs : Bytes) : Prop := bs.length = 8 ∧ value bs = d.secs.toNat

variable [Env]

/-- A public key: a byte for the kind of key, and the key. -/
def Key : PublicKey → Bytes → Prop
  | .ed25519 b _ _, bs => bs = 0 :: b
  | .rsa b _, bs => bs = 1 :: b
  | .secp256k1 b _ _, bs => bs = 2 :: b

/-- A signature: a byte for the kind of signature, and the signature. -/
def Sig : Signature → Bytes → Prop
  | .ed25519 b, bs => bs = 0 :: b
  | .rsa b _, bs => bs = 1 :: b
  | .secp256k1 b, bs => bs = 2 :: b

/-- A trust: the key and the signature, each after a byte with its length, the date of expiry and the date of issue. -/
inductive OfTrust (t : Trust) : Bytes → Prop
  | mk {n m : UInt8} {k s e i : Bytes} : Key t.issuedFor k → Sig t.signature s → Secs t.expiresAt e → Secs t.issuedAt i →
      n.toNat = k.length → m.toNat = s.length → OfTrust t ([n] ++ k ++ [m] ++ s ++ e ++ i)

/-- Trusts one after another, each after a byte with its length. -/
inductive OfTrusts : List Trust → Bytes → Prop
  | nil : OfTrusts [] []
  | cons {t : Trust} {ts : List Trust} {n : UInt8} {b r : Bytes} : OfTrust t b → n.toNat = b.length → OfTrusts ts r →
      OfTrusts (t :: ts) ([n] ++ b ++ r)

/-- What is signed for a trust, before hashing: the key, the date of expiry and the date of issue. -/
inductive TrustMessage (k : PublicKey) (expires issued : Dur) : Bytes → Prop
  | mk {b e i : Bytes} : Key k b → Secs expires e → Secs issued i → TrustMessage k expires issued (b ++ e ++ i)

/-- What is signed for a revocation, before hashing: the key after a byte with its length (modulo 256), and the date. -/
inductive RevocationMessage (k : PublicKey) (revoked : Dur) : Bytes → Prop
  | mk {n : UInt8} {b r : Bytes} : Key k b → n.toNat = b.length % 256 → Secs revoked r → RevocationMessage k revoked ([n] ++ b ++ r)

/-- The text by which the service calls a key: the peer id. -/
def Peer : PublicKey → Str → Prop
  | .ed25519 b _ _, s => s = Base58.encode ([0, 36, 8, 1, 18, 32] ++ b)
  | .secp256k1 b _ _, s => s = Base58.encode ([0, 37, 8, 2, 18, 33] ++ b)
  | .rsa _ _, _ => False

/-- The text by which the service calls an RSA key (of 256 to 16359 bytes, which includes keys of 2048 to 130000 bits): the base 58 text of the SHA-256
multihash of the libp2p record of the key in X.509 form.  `h l`, `h' l'` are lengths, the greater byte first, and `v w` is a length in seven-bit pieces, the
lesser one first. -/
def RsaPeer (b : Bytes) (s : Str) : Prop :=
  ∃ h l h' l' v w : UInt8,
    256 * h.toNat + l.toNat = b.length + 20 ∧ 256 * h'.toNat + l'.toNat = b.length + 1 ∧
    v.toNat + 128 * w.toNat = b.length + 24 + 128 ∧ 128 ≤ v.toNat ∧ w.toNat < 128 ∧
    s = Base58.encode ([0x12, 0x20] ++ Env.sha256 ([0x08, 0x00, 0x12, v, w] ++ [0x30, 0x82, h, l] ++
      [0x30, 0x0D, 0x06, 0x09, 0x2A, 0x86, 0x48, 0x86, 0xF7, 0x0D, 0x01, 0x01, 0x01, 0x05, 0x00] ++ [0x03, 0x82, h', l', 0x00] ++ b))

/-- The two texts of a signature in the records of the service: the signature in base 58 and its kind. -/
def SigTexts : Signature → Str → Str → Prop
  | .ed25519 b, s, n => s = Base58.encode b ∧ n = "ed25519".toList
  | .rsa b _, s, n => s = Base58.encode b ∧ n = "rsa".toList
  | .secp256k1 b, s, n => s = Base58.encode b ∧ n = "secp256k1".toList

/-! ### JSON -/

open Serde (Value)

/-- Bytes as an array of numbers. -/
def array (b : Bytes) : Value := .seq (b.map fun x => .num x.toNat)

/-- A time: seconds and nanoseconds. -/
def jsonTime (d : Dur) : Value := .map [("secs".toList, .num d.secs.toNat), ("nanos".toList, .num d.nanos.val)]

/-- A key. -/
def jsonKey : PublicKey → Value
  | .ed25519 b _ _ => .named "Ed25519".toList (array b)
  | .rsa b _ => .named "Rsa".toList (array b)
  | .secp256k1 b _ _ => .named "Secp256k1".toList (array b)

/-- A signature. -/
def jsonSig : Signature → Value
  | .ed25519 b => .named "Ed25519".toList (array b)
  | .rsa b _ => .named "Rsa".toList (array b)
  | .secp256k1 b => .named "Secp256k1".toList (array b)

/-- A trust. -/
def jsonTrust (t : Trust) : Value :=
  .map [("issued_for".toList, jsonKey t.issuedFor), ("expires_at".toList, jsonTime t.expiresAt), ("signature".toList, jsonSig t.signature),
    ("issued_at".toList, jsonTime t.issuedAt)]

/-- A relation. -/
def jsonRelation : TrustRelation → Value
  | .auth a => .named "Auth".toList (.map [("trust".toList, jsonTrust a.trust), ("issued_by".toList, jsonKey a.issuedBy)])
  | .revocation r => .named "Revocation".toList (.map [("pk".toList, jsonKey r.pk), ("revoked_at".toList, jsonTime r.revokedAt),
      ("revoked_by".toList, jsonKey r.revokedBy), ("signature".toList, jsonSig r.signature)])

end TG.Spec.Wire
