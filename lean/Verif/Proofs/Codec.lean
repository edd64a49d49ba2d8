/-
Helper lemmas about the encodings of keys, signatures and database rows.
-/
import Verif.Spec.Db

namespace TG
variable [Env]

namespace KeyFormat

theorem ofByte_toByte (f : KeyFormat) : ofByte f.toByte = .ok f := by
  cases f with
  | ed25519 => simp [ofByte, toByte]
  | rsa h => simp [ofByte, toByte, h]
  | secp256k1 => simp [ofByte, toByte]

theorem ofByte_ok {b : UInt8} {f : KeyFormat} (h : ofByte b = .ok f) : b = f.toByte := by
  unfold ofByte at h
  split at h
  · cases h; assumption
  · split at h
    · next hh => cases h; exact hh.1
    · split at h
      · cases h; assumption
      · cases h

omit [Env] in
theorem names_ne : "rsa".toList ≠ "ed25519".toList ∧ "rsa".toList ≠ "secp256k1".toList ∧
    "secp256k1".toList ≠ "ed25519".toList := by decide

theorem fromStr_toStr (f : KeyFormat) : fromStr f.toStr = .ok f := by
  obtain ⟨h1, h2, h3⟩ := names_ne
  unfold fromStr
  cases f with
  | ed25519 => exact if_pos rfl
  | rsa h => exact (if_neg h1).trans ((if_neg h2).trans (dif_pos ⟨rfl, h⟩))
  | secp256k1 => exact (if_neg h3).trans (if_pos rfl)

theorem fromStr_ok {s : Str} {f : KeyFormat} (h : fromStr s = .ok f) : s = f.toStr := by
  unfold fromStr at h
  split at h
  · cases h; assumption
  · split at h
    · cases h; assumption
    · split at h
      · next hh => cases h; exact hh.1
      · cases h

end KeyFormat

namespace Signature

theorem decode_encode (s : Signature) : decode s.encode = .ok s := by
  cases s with
  | ed25519 b => simp [decode, encode, prefixByte, sigType, raw, KeyFormat.ofByte_toByte]
  | rsa b h => simp [decode, encode, prefixByte, sigType, raw, KeyFormat.ofByte_toByte]
  | secp256k1 b => simp [decode, encode, prefixByte, sigType, raw, KeyFormat.ofByte_toByte]

theorem decode_ok {bs : Bytes} {s : Signature} (h : decode bs = .ok s) : bs = s.encode := by
  cases bs with
  | nil => cases h
  | cons b r =>
    rw [decode, Outcome.bind_eq_ok] at h
    obtain ⟨f, hf, h⟩ := h
    have := KeyFormat.ofByte_ok hf
    cases f <;> cases h <;> simp [encode, prefixByte, sigType, raw, this]

theorem encode_inj {s s' : Signature} (h : s.encode = s'.encode) : s = s' := by
  have := decode_encode s
  rw [h, decode_encode s'] at this
  cases this; rfl

theorem fromBytes_raw (s : Signature) : fromBytes s.sigType s.raw = s := by
  cases s <;> rfl

theorem fromBytes_sigType (f : KeyFormat) (b : Bytes) : (fromBytes f b).sigType = f := by
  cases f <;> rfl

theorem raw_fromBytes (f : KeyFormat) (b : Bytes) : (fromBytes f b).raw = b := by
  cases f <;> rfl

end Signature

namespace Ed25519

theorem decode_ok {bs : Bytes} {pk : PublicKey} (h : decode bs = .ok pk) :
    ∃ hl hv, pk = .ed25519 bs hl hv := by
  unfold decode at h
  split at h
  · next hl =>
    split at h
    · next hv => cases h; exact ⟨hl, hv, rfl⟩
    · cases h
  · cases h

theorem decode_self (b : Bytes) (hl : b.length = 32) (hv : Env.edValid b = true) :
    decode b = .ok (.ed25519 b hl hv) := by
  unfold decode; rw [dif_pos hl, dif_pos hv]

end Ed25519

namespace Secp256k1

theorem decode_ok {bs : Bytes} {pk : PublicKey} (h : decode bs = .ok pk) :
    ∃ hl hv, pk = .secp256k1 bs hl hv := by
  unfold decode at h
  split at h
  · next hl =>
    split at h
    · next hv => cases h; exact ⟨hl, hv, rfl⟩
    · cases h
  · cases h

theorem decode_self (b : Bytes) (hl : b.length = 33) (hv : Env.secpValid b = true) :
    decode b = .ok (.secp256k1 b hl hv) := by
  unfold decode; rw [dif_pos hl, dif_pos hv]

end Secp256k1

namespace PublicKey

theorem decode_encode (pk : PublicKey) : decode pk.encode = .ok pk := by
  cases pk with
  | ed25519 b hl hv =>
    simp [decode, encode, prefixByte, keyFormat, raw, KeyFormat.ofByte_toByte, Ed25519.decode_self b hl hv]
  | rsa b h => simp [decode, encode, prefixByte, keyFormat, raw, KeyFormat.ofByte_toByte]
  | secp256k1 b hl hv =>
    simp [decode, encode, prefixByte, keyFormat, raw, KeyFormat.ofByte_toByte, Secp256k1.decode_self b hl hv]

theorem decode_ok {bs : Bytes} {pk : PublicKey} (h : decode bs = .ok pk) : bs = pk.encode := by
  cases bs with
  | nil => cases h
  | cons b r =>
    rw [decode, Outcome.bind_eq_ok] at h
    obtain ⟨f, hf, h⟩ := h
    have hb := KeyFormat.ofByte_ok hf
    cases f with
    | ed25519 =>
      obtain ⟨hl, hv, rfl⟩ := Ed25519.decode_ok h
      simp [encode, prefixByte, keyFormat, raw, hb]
    | rsa hh => cases h; simp [encode, prefixByte, keyFormat, raw, hb]
    | secp256k1 =>
      obtain ⟨hl, hv, rfl⟩ := Secp256k1.decode_ok h
      simp [encode, prefixByte, keyFormat, raw, hb]

theorem encode_inj {pk pk' : PublicKey} (h : pk.encode = pk'.encode) : pk = pk' := by
  have := decode_encode pk
  rw [h, decode_encode pk'] at this
  cases this; rfl

theorem encode_ne_nil (pk : PublicKey) : pk.encode ≠ [] := by simp [encode]

theorem fromBase58_keyText (pk : PublicKey) : fromBase58 (keyText pk) = .ok pk := by
  unfold fromBase58 keyText
  rw [Base58.decode_encode]
  exact decode_encode pk

end PublicKey

theorem keyText_inj {pk pk' : PublicKey} (h : keyText pk = keyText pk') : pk = pk' := by
  have := PublicKey.fromBase58_keyText pk
  rw [h, PublicKey.fromBase58_keyText pk'] at this
  cases this; rfl

@[simp] theorem keyText_inj_iff {pk pk' : PublicKey} : keyText pk = keyText pk' ↔ pk = pk' :=
  ⟨keyText_inj, fun h => by rw [h]⟩

/-! ### Database rows -/

instance (r : TrustRelation) : Decidable r.Whole := by
  cases r <;> unfold TrustRelation.Whole <;> infer_instance

theorem TrustRelation.trunc_whole (r : TrustRelation) : r.trunc.Whole := by
  cases r
  · exact ⟨rfl, rfl⟩
  · rfl

theorem TrustRelation.Whole.trunc_eq {r : TrustRelation} (h : r.Whole) : r.trunc = r := by
  cases r with
  | auth a =>
    obtain ⟨⟨pk, e, s, i⟩, b⟩ := a
    obtain ⟨h1, h2⟩ := h
    simp only [TrustRelation.trunc, Trust.trunc, Dur.trunc]
    rw [Dur.Whole.eq h1, Dur.Whole.eq h2]
  | revocation r =>
    obtain ⟨pk, a, b, s⟩ := r
    simp only [TrustRelation.trunc, Dur.trunc]
    rw [Dur.Whole.eq (show a.Whole from h)]

theorem toRow_trunc (r : TrustRelation) : Sqlite.toRow r.trunc = Sqlite.toRow r := by
  cases r <;> rfl

theorem parseRelation_toRow (r : TrustRelation) : Sqlite.parseRelation (Sqlite.toRow r) = .ok r.trunc := by
  cases r with
  | auth a =>
    simp [Sqlite.parseRelation, Sqlite.toRow, PublicKey.fromBase58_keyText, Signature.decode_encode,
      asU64_asI64, TrustRelation.trunc, TrustRelation.issuedFor, TrustRelation.issuedBy,
      TrustRelation.issuedAt, TrustRelation.expiresAt, TrustRelation.signature, Trust.trunc, Dur.trunc]
  | revocation r =>
    simp [Sqlite.parseRelation, Sqlite.toRow, PublicKey.fromBase58_keyText, Signature.decode_encode,
      asU64_asI64, TrustRelation.trunc, TrustRelation.issuedFor, TrustRelation.issuedBy,
      TrustRelation.issuedAt, TrustRelation.signature, Dur.trunc, authType, revocationType]

theorem toRow_inj {r r' : TrustRelation} (h : r.Whole) (h' : r'.Whole)
    (e : Sqlite.toRow r = Sqlite.toRow r') : r = r' := by
  have := parseRelation_toRow r
  rw [e, parseRelation_toRow r', h.trunc_eq, h'.trunc_eq] at this
  cases this; rfl

@[simp] theorem toRow_issuedFor (r : TrustRelation) :
    (Sqlite.toRow r).issuedFor = keyText r.issuedFor := rfl
@[simp] theorem toRow_issuedBy (r : TrustRelation) :
    (Sqlite.toRow r).issuedBy = keyText r.issuedBy := rfl

end TG
