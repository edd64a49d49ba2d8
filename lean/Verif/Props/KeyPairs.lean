/-
C67: what is read as a key pair, and how the rest is refused.  C49: key texts.
-/
import Verif.Props.Keys
import Verif.Props.Formats

namespace TG
variable [Env]

/-- **C67**: the bytes read as a key pair are exactly those written for it. -/
theorem C67_vec_exactly (bs : Bytes) (f : KeyFormat) (kp : KeyPair) : KeyPair.fromVec bs f = .ok kp ↔ kp.toVec = .ok bs ∧ kp.keyFormat = f := by
  refine ⟨fun h => ?_, fun ⟨h, hf⟩ => hf ▸ C67_vec_roundtrip kp bs h⟩
  cases f with
  | ed25519 =>
    simp only [KeyPair.fromVec, KeyPair.edDecode] at h
    split at h
    · split at h
      · split at h
        · rename_i h1
          cases h
          exact ⟨by rw [KeyPair.toVec, h1, List.take_append_drop], rfl⟩
        · cases h
      · cases h
    · cases h
  | rsa n => cases h
  | secp256k1 =>
    simp only [KeyPair.fromVec, KeyPair.secpFromBytes] at h
    split at h
    · split at h
      · cases h
        exact ⟨rfl, rfl⟩
      · cases h
    · cases h

/-- **C67**: the bytes read as a secret key are exactly those of the secret key. -/
theorem C67_secret_exactly (bs : Bytes) (f : KeyFormat) (kp : KeyPair) :
    KeyPair.fromSecretKey bs f = .ok kp ↔ kp.secret = .ok bs ∧ kp.keyFormat = f := by
  refine ⟨fun h => ?_, fun ⟨h, hf⟩ => hf ▸ C67_secret_roundtrip kp bs h⟩
  cases f with
  | ed25519 =>
    simp only [KeyPair.fromSecretKey] at h
    split at h
    · cases h
      exact ⟨rfl, rfl⟩
    · cases h
  | rsa n => cases h
  | secp256k1 =>
    simp only [KeyPair.fromSecretKey, KeyPair.secpFromBytes] at h
    split at h
    · split at h
      · cases h
        exact ⟨rfl, rfl⟩
      · cases h
    · cases h

/-- **C67**: bytes that are not read as a key pair are refused with an error, and so are bytes that are not read as a secret key, names and bytes of formats;
nothing panics. -/
theorem C67_refused (bs : Bytes) (f : KeyFormat) (b : UInt8) (s : Str) :
    ((∃ kp, KeyPair.fromVec bs f = .ok kp) ∨ ∃ e, KeyPair.fromVec bs f = .err e) ∧
    ((∃ kp, KeyPair.fromSecretKey bs f = .ok kp) ∨ ∃ e, KeyPair.fromSecretKey bs f = .err e) ∧
    ((∃ f, KeyFormat.ofByte b = .ok f) ∨ KeyFormat.ofByte b = .err .invalidTypeByte) ∧
    ((∃ f, KeyFormat.fromStr s = .ok f) ∨ KeyFormat.fromStr s = .err .invalidKeyFormat) := by
  have secp : (∃ kp, KeyPair.secpFromBytes bs = .ok kp) ∨ ∃ e, KeyPair.secpFromBytes bs = .err e := by
    unfold KeyPair.secpFromBytes
    split
    · split
      · exact .inl ⟨_, rfl⟩
      · exact .inr ⟨_, rfl⟩
    · exact .inr ⟨_, rfl⟩
  refine ⟨?_, ?_, ?_, ?_⟩
  · cases f with
    | ed25519 =>
      simp only [KeyPair.fromVec, KeyPair.edDecode]
      split
      · split
        · split
          · exact .inl ⟨_, rfl⟩
          · exact .inr ⟨_, rfl⟩
        · exact .inr ⟨_, rfl⟩
      · exact .inr ⟨_, rfl⟩
    | rsa n => exact .inr ⟨_, rfl⟩
    | secp256k1 => exact secp
  · cases f with
    | ed25519 =>
      simp only [KeyPair.fromSecretKey]
      split
      · exact .inl ⟨_, rfl⟩
      · exact .inr ⟨_, rfl⟩
    | rsa n => exact .inr ⟨_, rfl⟩
    | secp256k1 => exact secp
  · unfold KeyFormat.ofByte
    split
    · exact .inl ⟨_, rfl⟩
    · split
      · exact .inl ⟨_, rfl⟩
      · split
        · exact .inl ⟨_, rfl⟩
        · exact .inr rfl
  · unfold KeyFormat.fromStr
    split
    · exact .inl ⟨_, rfl⟩
    · split
      · exact .inl ⟨_, rfl⟩
      · split
        · exact .inl ⟨_, rfl⟩
        · exact .inr rfl

/-- **C49** for the texts of keys: the empty text is the only one that panics.  Missing: that one. -/
theorem C49_key_text_partial (s : Str) : PublicKey.fromBase58 s = .panic ↔ s = [] := by
  unfold PublicKey.fromBase58
  constructor
  · intro h
    rcases hd : Base58.decode s with _ | bs
    · rw [hd] at h; cases h
    · rw [hd] at h
      have := (C49_public_key_partial bs).mp h
      subst this
      exact (Base58.encode_decode hd).symm
  · rintro rfl
    rfl

/-- **C49** for keys as values of other formats: only empty texts and empty byte strings panic.  Missing: those. -/
theorem C49_key_value_partial (v : Hashable.Value) : Hashable.deserialize v = .panic ↔ v = .str [] ∨ v = .bytes [] := by
  cases v with
  | str s =>
    rw [show Hashable.deserialize (.str s) = PublicKey.fromBase58 s from rfl, C49_key_text_partial]
    simp
  | bytes b =>
    rw [show Hashable.deserialize (.bytes b) = PublicKey.decode b from rfl, C49_public_key_partial]
    simp
  | seq b => simp [Hashable.deserialize]

end TG
