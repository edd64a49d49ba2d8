/-
X.509 SubjectPublicKeyInfo encoding of RSA keys (/repo/keypair/src/rsa.rs:97-228).

The DER layer itself (`asn1_der` 0.6) is a dependency and is modelled by the DER rules: tag, definite
length (short form below 128, long form with up to 8 big-endian bytes otherwise), content.  As in the crate, bytes after
the outer object are ignored.  Simplification: surplus elements inside a SEQUENCE are ignored.
-/
import Verif.Model.Keypair

namespace TG.Der

/-- DER length octets (`asn1_der`, used in rsa.rs:101-121). -/
def lenBytes (n : Nat) : Bytes :=
  if n < 128 then [UInt8.ofNat n]
  else
    let be := (Base58.digits 256 n).map UInt8.ofNat
    UInt8.ofNat (128 + be.length) :: be

/-- A DER object: tag, length, content (`DerObject`, used in rsa.rs:101-204). -/
def tlv (tag : UInt8) (content : Bytes) : Bytes := tag :: (lenBytes content.length ++ content)

/-- Parse DER length octets (`asn1_der`, used in rsa.rs:117-121). -/
def parseLen : Bytes → Option (Nat × Bytes)
  | [] => none
  | b :: rest =>
    if b.toNat < 128 then some (b.toNat, rest)
    else
      let k := b.toNat - 128
      if k ≤ 8 ∧ k ≤ rest.length then
        some (Base58.ofDigits 256 ((rest.take k).map UInt8.toNat), rest.drop k)
      else none

/-- Parse one DER object (`DerObject::deserialize`, used in rsa.rs:117-121); returns tag, content and the remaining bytes. -/
def parseTlv : Bytes → Option (UInt8 × Bytes × Bytes)
  | [] => none
  | t :: rest =>
    match parseLen rest with
    | none => none
    | some (n, rest') => if n ≤ rest'.length then some (t, rest'.take n, rest'.drop n) else none

/-- `OID_RSA_ENCRYPTION_DER` (rsa.rs:150-156). -/
def oidRsa : Bytes := [0x2A, 0x86, 0x48, 0x86, 0xF7, 0x0D, 0x01, 0x01, 0x01]

/-- `Asn1RsaEncryption` (rsa.rs:185-189) as DER. -/
def algorithmIdentifier : Bytes := tlv 0x30 (tlv 0x06 oidRsa ++ tlv 0x05 [])

/-- `rsa::PublicKey::encode_x509` (rsa.rs:101-113) with `Asn1SubjectPublicKey::into_der_object` (rsa.rs:196-204). -/
def encodeX509 (pk : Bytes) : Bytes := tlv 0x30 (algorithmIdentifier ++ tlv 0x03 (0 :: pk))

/-- `rsa::PublicKey::decode_x509` (rsa.rs:117-121) with the `FromDerObject` implementations (rsa.rs:172-182,
210-220). -/
def decodeX509 (bs : Bytes) : Option Bytes :=
  match parseTlv bs with
  | some (t0, spki, _) =>
    if t0 = 0x30 then
      match parseTlv spki with
      | some (t1, alg, rest1) =>
        if t1 = 0x30 then
          match parseTlv alg with
          | some (t2, oid, rest2) =>
            if t2 = 0x06 ∧ oid = oidRsa then
              match parseTlv rest2 with
              | some (t3, params, _) =>
                if t3 = 0x05 ∧ params = [] then
                  match parseTlv rest1 with
                  | some (t4, bits, _) => if t4 = 0x03 then some (bits.drop 1) else none
                  | none => none
                else none
              | none => none
            else none
          | none => none
        else none
      | none => none
    else none
  | none => none

/-! ### Round trip -/

theorem digits_length_le (n k : Nat) (h : n < 256 ^ k) : (Base58.digits 256 n).length ≤ k := by
  induction k generalizing n with
  | zero =>
    have : n = 0 := by omega
    subst this; simp [Base58.digits_zero]
  | succ k ih =>
    rcases Nat.eq_zero_or_pos n with rfl | hn
    · simp [Base58.digits_zero]
    · rw [Base58.digits_pos (by omega) hn, List.length_append, List.length_singleton]
      have : n / 256 < 256 ^ k := by
        apply Nat.div_lt_of_lt_mul
        rw [Nat.pow_succ] at h; omega
      have := ih _ this
      omega

theorem parseLen_lenBytes (n : Nat) (rest : Bytes) (h : n < 2 ^ 64) :
    parseLen (lenBytes n ++ rest) = some (n, rest) := by
  unfold lenBytes
  split
  · next hn =>
    have : (UInt8.ofNat n).toNat = n := by rw [UInt8.toNat_ofNat']; omega
    simp only [List.singleton_append, parseLen, this, if_pos hn]
  · next hn =>
    have hlen : (Base58.digits 256 n).length ≤ 8 := digits_length_le n 8 (by omega)
    set be := (Base58.digits 256 n).map UInt8.ofNat with hbe
    have hbl : be.length = (Base58.digits 256 n).length := by rw [hbe, List.length_map]
    have hpos : 0 < be.length := by
      rw [hbl, List.length_pos_iff]
      intro h0
      rw [Base58.digits_eq_nil_iff (by omega)] at h0; omega
    have h1 : (UInt8.ofNat (128 + be.length)).toNat = 128 + be.length := by
      rw [UInt8.toNat_ofNat']; omega
    simp only [List.cons_append, parseLen, h1]
    rw [if_neg (by omega)]
    have h2 : 128 + be.length - 128 = be.length := by omega
    rw [h2, if_pos ⟨by omega, by simp⟩, List.take_left, List.drop_left, hbe,
      Base58.map_toNat_ofNat _ (Base58.digits_lt (by omega) n), Base58.ofDigits_digits (by omega)]

theorem parseTlv_tlv (t : UInt8) (c rest : Bytes) (h : c.length < 2 ^ 64) :
    parseTlv (tlv t c ++ rest) = some (t, c, rest) := by
  unfold tlv
  simp only [List.cons_append, parseTlv, List.append_assoc]
  rw [parseLen_lenBytes _ _ h]
  simp

theorem lenBytes_length_le (n : Nat) (h : n < 2 ^ 64) : (lenBytes n).length ≤ 9 := by
  unfold lenBytes
  split
  · simp
  · have := digits_length_le n 8 (by omega)
    simp only [List.length_cons, List.length_map]; omega

/-- Decoding inverts encoding for every RSA key of addressable size. -/
theorem decodeX509_encodeX509 (pk : Bytes) (h : pk.length + 64 < 2 ^ 64) :
    decodeX509 (encodeX509 pk) = some pk := by
  have hl1 := lenBytes_length_le (0 :: pk).length (by simp; omega)
  have halg : algorithmIdentifier.length = 15 := by decide +kernel
  have hcontent : (algorithmIdentifier ++ tlv 0x03 (0 :: pk)).length < 2 ^ 64 := by
    simp only [List.length_append, halg, tlv, List.length_cons] at hl1 ⊢; omega
  unfold decodeX509 encodeX509
  have e0 := parseTlv_tlv 0x30 (algorithmIdentifier ++ tlv 0x03 (0 :: pk)) [] hcontent
  rw [List.append_nil] at e0
  rw [e0]
  simp only [if_pos]
  have e1 := parseTlv_tlv 0x30 (tlv 0x06 oidRsa ++ tlv 0x05 []) (tlv 0x03 (0 :: pk))
    (by decide +kernel)
  rw [show algorithmIdentifier = tlv 0x30 (tlv 0x06 oidRsa ++ tlv 0x05 []) from rfl, e1]
  simp only [if_pos]
  rw [parseTlv_tlv 0x06 oidRsa (tlv 0x05 []) (by decide +kernel)]
  simp only [and_self, if_pos]
  have e3 := parseTlv_tlv 0x05 [] [] (by decide +kernel)
  rw [List.append_nil] at e3
  rw [e3]
  simp only [and_self, if_pos]
  have e4 := parseTlv_tlv 0x03 (0 :: pk) [] (by simp; omega)
  rw [List.append_nil] at e4
  rw [e4]
  simp

end TG.Der
