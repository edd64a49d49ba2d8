/-
Signatures, keys and their encodings: C38–C45, C50, C66, C67, C68, C73.
-/
import Verif.Proofs.Codec
import Verif.Proofs.Certificate
import Verif.Model.Hashable
import Verif.Model.Der
import Verif.Spec.Crypto
import Verif.Spec.Toy

namespace TG

section
variable [Env]

/-! ### C41, C43: checking signatures -/

/-- **C43**: the declared type of a signature does not matter. -/
theorem C43_label_irrelevant (pk : PublicKey) (msg : Bytes) (s s' : Signature) (h : s.raw = s'.raw) :
    pk.verify msg s = pk.verify msg s' := by
  unfold PublicKey.verify; rw [h]

theorem C43_relabel (pk : PublicKey) (msg : Bytes) (s : Signature) (f : KeyFormat) :
    pk.verify msg (Signature.fromBytes f s.raw) = pk.verify msg s :=
  C43_label_irrelevant _ _ _ _ (Signature.raw_fromBytes f s.raw)

/-- **C41**, completeness half: genuine signatures are accepted, for every key type. -/
theorem C41_genuine_accepted (pk : PublicKey) (msg : Bytes) (s : Signature) (h : pk.Accepts msg s.raw) :
    pk.verify msg s = .ok () := by
  cases pk with
  | ed25519 b l v => simp only [PublicKey.Accepts] at h; simp [PublicKey.verify, Ed25519.verify, h]
  | rsa b n => simp only [PublicKey.Accepts] at h; simp [PublicKey.verify, Rsa.verify, h]
  | secp256k1 b l v =>
    simp only [PublicKey.Accepts] at h
    simp [PublicKey.verify, Secp256k1.verify, Secp256k1.verifyHashed, Env.sha256_length, h.1]

/-- **C41**, soundness for Ed25519 and RSA.  Missing: Secp256k1, for which it is false (`C41_verify_sound_fails`). -/
theorem C41_verify_sound_partial (pk : PublicKey) (msg : Bytes) (s : Signature) (hk : pk.NotSecp) :
    pk.verify msg s = .ok () ↔ pk.Accepts msg s.raw := by
  refine ⟨fun h => ?_, C41_genuine_accepted pk msg s⟩
  cases pk with
  | ed25519 b l v => simpa [PublicKey.verify, Ed25519.verify, PublicKey.Accepts] using h
  | rsa b n => simpa [PublicKey.verify, Rsa.verify, PublicKey.Accepts] using h
  | secp256k1 b l v => exact hk.elim

/-- What is checked for Secp256k1 keys: only that the signature can be parsed. -/
theorem C41_secp256k1_accepts_everything (b : Bytes) (l : b.length = 33) (v : Env.secpValid b = true) (msg : Bytes)
    (s : Signature) : (PublicKey.secp256k1 b l v).verify msg s = .ok () ↔ Env.secpParseDer s.raw = true := by
  simp [PublicKey.verify, Secp256k1.verify, Secp256k1.verifyHashed, Env.sha256_length]

/-! ### C38: verifying a trust -/

/-- **C38**: a trust verifies iff it has not expired and its signature is accepted for its message. -/
theorem C38_verify_decides (t : Trust) (by' : PublicKey) (now : Dur) :
    t.verify by' now = .ok () ↔
      now.total ≤ t.expiresAt.total ∧
        by'.verify (Trust.signatureBytes t.issuedFor t.expiresAt t.issuedAt) t.signature = .ok () :=
  Trust.verify_iff

/-- For Ed25519 and RSA issuers this means that the signature is genuine. -/
theorem C38_verify_genuine (t : Trust) (by' : PublicKey) (now : Dur) (hk : by'.NotSecp) :
    t.verify by' now = .ok () ↔
      now.total ≤ t.expiresAt.total ∧
        by'.Accepts (Trust.signatureBytes t.issuedFor t.expiresAt t.issuedAt) t.signature.raw := by
  rw [C38_verify_decides, C41_verify_sound_partial _ _ _ hk]

/-- Expiry is reported first, whatever the signature. -/
theorem C38_expired_first (t : Trust) (by' : PublicKey) (now : Dur) :
    t.verify by' now = .err .expired ↔ t.expiresAt.total < now.total := by
  rw [← Dur.lt_iff]
  unfold Trust.verify
  split
  · simp_all
  · rename_i h
    simp only [h, Bool.false_eq_true, iff_false]
    cases KeyPair.verify by' (Trust.signatureBytes t.issuedFor t.expiresAt t.issuedAt) t.signature <;> simp

/-- Verification always returns: it neither panics nor diverges. -/
theorem C38_verify_total (t : Trust) (by' : PublicKey) (now : Dur) :
    t.verify by' now = .ok () ∨ ∃ e, t.verify by' now = .err e := by
  unfold Trust.verify KeyPair.verify PublicKey.verify Ed25519.verify Rsa.verify Secp256k1.verify Secp256k1.verifyHashed
  split
  · exact .inr ⟨_, rfl⟩
  · cases by' <;> dsimp only <;> repeat' split
    all_goals first | exact .inl rfl | exact .inr ⟨_, rfl⟩

/-! ### C39, C40: what is signed -/

/-- **C39** for trusts: the message determines recipient and times. -/
theorem C39_trust_message_binds {pk pk' : PublicKey} {e e' i i' : Dur}
    (h : Trust.metadata pk e i = Trust.metadata pk' e' i') : pk = pk' ∧ e.secs = e'.secs ∧ i.secs = i'.secs := by
  unfold Trust.metadata at h
  obtain ⟨h1, h2⟩ := List.append_inj' h rfl
  obtain ⟨h3, h4⟩ := List.append_inj' h1 rfl
  exact ⟨PublicKey.encode_inj h3, le8_inj h4, le8_inj h2⟩

/-- **C39** for revocations. -/
theorem C39_revocation_message_binds {pk pk' : PublicKey} {r r' : Dur}
    (h : Revocation.metadata pk r = Revocation.metadata pk' r') : pk = pk' ∧ r.secs = r'.secs := by
  unfold Revocation.metadata at h
  obtain ⟨h1, h2⟩ := List.append_inj' (List.cons.inj h).2 rfl
  exact ⟨PublicKey.encode_inj h1, le8_inj h2⟩

/-- What is handed to the signature scheme is the SHA-256 of these messages: two trusts that share a signed hash share all fields, or
their messages are a SHA-256 collision. -/
theorem C39_trust_hash_binds {pk pk' : PublicKey} {e e' i i' : Dur}
    (h : Trust.signatureBytes pk e i = Trust.signatureBytes pk' e' i') :
    (pk = pk' ∧ e.secs = e'.secs ∧ i.secs = i'.secs) ∨
      (Trust.metadata pk e i ≠ Trust.metadata pk' e' i' ∧
        Env.sha256 (Trust.metadata pk e i) = Env.sha256 (Trust.metadata pk' e' i')) := by
  by_cases hm : Trust.metadata pk e i = Trust.metadata pk' e' i'
  · exact .inl (C39_trust_message_binds hm)
  · exact .inr ⟨hm, h⟩

theorem C39_revocation_hash_binds {pk pk' : PublicKey} {r r' : Dur}
    (h : Revocation.signatureBytes pk r = Revocation.signatureBytes pk' r') :
    (pk = pk' ∧ r.secs = r'.secs) ∨
      (Revocation.metadata pk r ≠ Revocation.metadata pk' r' ∧
        Env.sha256 (Revocation.metadata pk r) = Env.sha256 (Revocation.metadata pk' r')) := by
  by_cases hm : Revocation.metadata pk r = Revocation.metadata pk' r'
  · exact .inl (C39_revocation_message_binds hm)
  · exact .inr ⟨hm, h⟩

/-- **C40**, when the revoked key is not RSA.  Missing: RSA keys, for which it is false (`C40_no_confusion_fails`). -/
theorem C40_no_confusion_partial (pk pk' : PublicKey) (e i r : Dur) (hk : pk'.NotRsa) :
    Trust.metadata pk e i ≠ Revocation.metadata pk' r := by
  intro h
  have h0 := (List.cons.inj (show pk.prefixByte :: _ = _ from h)).1
  have h1 : (pk'.encode.length) = 33 ∨ pk'.encode.length = 34 := by
    cases pk' with
    | ed25519 b l v => left; simp [PublicKey.encode, PublicKey.raw, l]
    | rsa b n => exact hk.elim
    | secp256k1 b l v => right; simp [PublicKey.encode, PublicKey.raw, l]
  have h2 : pk.prefixByte = 0 ∨ pk.prefixByte = 1 ∨ pk.prefixByte = 2 := by
    cases pk <;> simp [PublicKey.prefixByte, PublicKey.keyFormat, KeyFormat.toByte]
  rcases h1 with h1 | h1 <;> rw [h1] at h0 <;> rcases h2 with h2 | h2 | h2 <;> rw [h2] at h0 <;> revert h0 <;> decide

/-- On the service's target (wasm32) there are no RSA keys, so there C40 holds for all keys. -/
theorem C40_no_confusion_wasm (hw : Env.wasm = true) (pk pk' : PublicKey) (e i r : Dur) :
    Trust.metadata pk e i ≠ Revocation.metadata pk' r := by
  apply C40_no_confusion_partial
  cases pk' with
  | ed25519 => trivial
  | rsa b n => rw [hw] at n; cases n
  | secp256k1 => trivial

/-! ### C44, C45, C50: encodings -/

/-- **C44**: decoding inverts encoding. -/
theorem C44_roundtrip (pk : PublicKey) : PublicKey.decode pk.encode = .ok pk := PublicKey.decode_encode pk

/-- Different keys have different encodings. -/
theorem C44_injective {pk pk' : PublicKey} (h : pk.encode = pk'.encode) : pk = pk' := PublicKey.encode_inj h

/-- Only encodings are accepted: no two byte strings decode to the same key. -/
theorem C44_canonical {bs : Bytes} {pk : PublicKey} (h : PublicKey.decode bs = .ok pk) : bs = pk.encode :=
  PublicKey.decode_ok h

/-- The base58 text of a key is read back as the key, and nothing else is. -/
theorem C44_text {s : Str} {pk : PublicKey} : PublicKey.fromBase58 s = .ok pk ↔ s = Base58.encode pk.encode := by
  constructor
  · intro h
    unfold PublicKey.fromBase58 at h
    split at h
    · cases h
    · next bs hb => rw [← C44_canonical h, Base58.encode_decode hb]
  · rintro rfl
    simp [PublicKey.fromBase58, Base58.decode_encode, PublicKey.decode_encode]

/-- **C45**: decoding inverts encoding, and only encodings are accepted. -/
theorem C45_roundtrip (s : Signature) : Signature.decode s.encode = .ok s := Signature.decode_encode s

theorem C45_canonical {bs : Bytes} {s : Signature} (h : Signature.decode bs = .ok s) : bs = s.encode :=
  Signature.decode_ok h

/-- The type label and the raw bytes together give back the signature. -/
theorem C45_from_bytes (s : Signature) : Signature.fromBytes s.sigType s.raw = s := Signature.fromBytes_raw s

omit [Env] in
/-- **C50**: decoding inverts encoding for every byte string, and only encodings are accepted. -/
theorem C50_roundtrip (bs : Bytes) : Base58.decode (Base58.encode bs) = some bs := Base58.decode_encode bs

omit [Env] in
theorem C50_canonical {s : Str} {bs : Bytes} (h : Base58.decode s = some bs) : s = Base58.encode bs :=
  (Base58.encode_decode h).symm

/-- So different keys have different texts. -/
theorem C50_keys_differ {pk pk' : PublicKey} (h : Base58.encode pk.encode = Base58.encode pk'.encode) : pk = pk' :=
  PublicKey.encode_inj (Base58.encode_inj h)

/-! ### C66, C73: keys in hash maps and in serialised form -/

/-- **C66**: keys are equal iff they feed the hasher the same bytes. -/
theorem C66_hash_consistent (pk pk' : PublicKey) : pk = pk' ↔ Hashable.hashInput pk = Hashable.hashInput pk' :=
  ⟨fun h => h ▸ rfl, PublicKey.encode_inj⟩

/-- Slices of keys too, as long as no RSA key (of unknown length) is among them. -/
theorem C66_hash_slice_consistent (l l' : List PublicKey) (h : ∀ pk ∈ l, pk.NotRsa) (h' : ∀ pk ∈ l', pk.NotRsa) :
    l = l' ↔ Hashable.hashSliceInput l = Hashable.hashSliceInput l' := by
  refine ⟨fun h => h ▸ rfl, ?_⟩
  have hlen : ∀ {p q : PublicKey}, p.NotRsa → q.NotRsa → p.prefixByte = q.prefixByte →
      p.encode.length = q.encode.length := by
    intro p q hp hq hpq
    cases p <;> cases q <;> simp_all [PublicKey.NotRsa, PublicKey.encode, PublicKey.raw, PublicKey.prefixByte,
      PublicKey.keyFormat, KeyFormat.toByte]
  induction l generalizing l' with
  | nil =>
    intro he
    cases l' with
    | nil => rfl
    | cons q l' => simp [Hashable.hashSliceInput, PublicKey.encode] at he
  | cons p l ih =>
    intro he
    cases l' with
    | nil => simp [Hashable.hashSliceInput, PublicKey.encode] at he
    | cons q l' =>
      simp only [Hashable.hashSliceInput, List.flatMap_cons] at he
      have hp := h p (by simp)
      have hq := h' q (by simp)
      have h0 : p.prefixByte = q.prefixByte := by
        have := he
        simp only [PublicKey.encode, List.cons_append, List.cons.injEq] at this
        exact this.1
      obtain ⟨h1, h2⟩ := List.append_inj he (hlen hp hq h0)
      rw [PublicKey.encode_inj h1, ih l' (fun x hx => h x (by simp [hx])) (fun x hx => h' x (by simp [hx])) h2]

/-- **C73** for formats with byte strings, and for the textual form.  Missing: formats without byte strings, for which it is false
(`C73_serde_fails`). -/
theorem C73_serde_partial (pk : PublicKey) :
    Hashable.deserialize (Hashable.serialize pk) = .ok pk ∧
    Hashable.deserialize (.str (Hashable.display pk)) = .ok pk ∧
    Hashable.fromStr (Hashable.display pk) = .ok pk := by
  refine ⟨PublicKey.decode_encode pk, ?_, ?_⟩ <;>
    simp [Hashable.deserialize, Hashable.display, Hashable.fromStr, PublicKey.fromBase58, Base58.decode_encode,
      PublicKey.decode_encode]

/-- **C73 fails** for formats such as JSON, where bytes become an array: no key can be read back. -/
theorem C73_serde_fails (pk : PublicKey) : Hashable.deserialize (Hashable.jsonOf (Hashable.serialize pk)) ≠ .ok pk := by
  simp [Hashable.deserialize, Hashable.jsonOf, Hashable.serialize]

/-! ### C67: key pairs -/

/-- **C67** for byte forms of whole pairs: reading back what was written. -/
theorem C67_vec_roundtrip (kp : KeyPair) (bs : Bytes) (h : kp.toVec = .ok bs) :
    KeyPair.fromVec bs kp.keyFormat = .ok kp := by
  cases kp with
  | ed25519 sk l =>
    cases h
    simp only [KeyPair.keyFormat, KeyPair.fromVec, KeyPair.edDecode]
    have h1 : (sk ++ Env.edPublic sk).take 32 = sk := by rw [← l, List.take_left]
    have h2 : (sk ++ Env.edPublic sk).drop 32 = Env.edPublic sk := by rw [← l, List.drop_left]
    rw [if_pos (by rw [List.length_append, l, Env.edPublic_length]), dif_pos (by rw [h1, l]), if_pos (by rw [h1, h2])]
    congr 2
  | rsa k n => cases h
  | secp256k1 sk l v =>
    cases h
    simp [KeyPair.keyFormat, KeyPair.fromVec, KeyPair.secpFromBytes, l, v]

/-- Ed25519 and Secp256k1 pairs can always be written; RSA pairs never. -/
theorem C67_vec_defined (kp : KeyPair) : (∃ bs, kp.toVec = .ok bs) ↔ kp.pub.NotRsa := by
  cases kp <;> simp [KeyPair.toVec, KeyPair.pub, PublicKey.NotRsa]

/-- **C67** for secret keys. -/
theorem C67_secret_roundtrip (kp : KeyPair) (bs : Bytes) (h : kp.secret = .ok bs) :
    KeyPair.fromSecretKey bs kp.keyFormat = .ok kp := by
  cases kp with
  | ed25519 sk l => cases h; simp [KeyPair.keyFormat, KeyPair.fromSecretKey, l]
  | rsa k n => cases h
  | secp256k1 sk l v => cases h; simp [KeyPair.keyFormat, KeyPair.fromSecretKey, KeyPair.secpFromBytes, l, v]

/-- **C67** for key formats: both forms are read back, and nothing else is read as a format. -/
theorem C67_format_byte (f : KeyFormat) (b : UInt8) : KeyFormat.ofByte b = .ok f ↔ b = f.toByte :=
  ⟨KeyFormat.ofByte_ok, fun h => h ▸ KeyFormat.ofByte_toByte f⟩

theorem C67_format_text (f : KeyFormat) (s : Str) : KeyFormat.fromStr s = .ok f ↔ s = f.toStr :=
  ⟨KeyFormat.fromStr_ok, fun h => h ▸ KeyFormat.fromStr_toStr f⟩

/-- The format of a pair is the format of its public key. -/
theorem C67_format_public (kp : KeyPair) : kp.pub.keyFormat = kp.keyFormat := by cases kp <;> rfl

omit [Env] in
/-- **C68**: X.509 encoding is inverted for every byte string that fits into memory. -/
theorem C68_x509_roundtrip (pk : Bytes) (h : pk.length + 64 < 2 ^ 64) : Der.decodeX509 (Der.encodeX509 pk) = some pk :=
  Der.decodeX509_encodeX509 pk h

end

/-! ### C42: what is created verifies -/

section
variable [LawfulEnv]

/-- Signatures made with a pair are genuine. -/
theorem C42_sign_genuine (kp : KeyPair) (msg : Bytes) (s : Signature) (h : kp.sign msg = .ok s) :
    kp.pub.Accepts msg s.raw := by
  cases kp with
  | ed25519 sk l => cases h; exact LawfulEnv.ed_sign sk msg
  | rsa k n =>
    simp only [KeyPair.sign] at h
    split at h
    · next s' hs => cases h; exact LawfulEnv.rsa_sign k msg _ hs
    · cases h
  | secp256k1 sk l v =>
    simp only [KeyPair.sign, Env.sha256_length, if_true] at h
    cases h
    exact ⟨LawfulEnv.secp_sign_der sk _, LawfulEnv.secp_sign sk _⟩

theorem KeyPair.sign_ok (kp : KeyPair) (msg : Bytes) (h : kp.CanSign msg) : ∃ s, kp.sign msg = .ok s := by
  cases kp with
  | ed25519 sk l => exact ⟨_, rfl⟩
  | rsa k n =>
    obtain ⟨s, hs⟩ := Option.isSome_iff_exists.mp h
    exact ⟨.rsa s n, by simp [KeyPair.sign, hs]⟩
  | secp256k1 sk l v => exact ⟨_, by simp only [KeyPair.sign, Env.sha256_length, if_true]; rfl⟩

/-- **C42** for trusts: creating one succeeds, with the given fields, and the result verifies under the creator's key until it
expires (`LawfulEnv`: the signature schemes accept what they sign). -/
theorem C42_created_trust_verifies (kp : KeyPair) (pk : PublicKey) (e i : Dur)
    (hs : kp.CanSign (Trust.signatureBytes pk e i)) :
    ∃ t, Trust.create kp pk e i = .ok t ∧ t.issuedFor = pk ∧ t.expiresAt = e ∧ t.issuedAt = i ∧
      ∀ now, t.verify kp.pub now = .ok () ↔ now.total ≤ e.total := by
  obtain ⟨s, hs⟩ := kp.sign_ok _ hs
  refine ⟨⟨pk, e, s, i⟩, by simp [Trust.create, hs], rfl, rfl, rfl, fun now => ?_⟩
  rw [C38_verify_decides]
  exact ⟨fun h => h.1, fun h => ⟨h, C41_genuine_accepted _ _ _ (C42_sign_genuine _ _ _ hs)⟩⟩

/-- **C42** for revocations. -/
theorem C42_created_revocation_verifies (kp : KeyPair) (pk : PublicKey) (r : Dur)
    (hs : kp.CanSign (Revocation.signatureBytes pk r)) :
    ∃ v, Revocation.create kp pk r = .ok v ∧ v.pk = pk ∧ v.revokedAt = r ∧ v.revokedBy = kp.pub ∧ v.verify = .ok () := by
  obtain ⟨s, hs⟩ := kp.sign_ok _ hs
  refine ⟨⟨pk, r, kp.pub, s⟩, by simp [Revocation.create, hs, Revocation.new], rfl, rfl, rfl, ?_⟩
  unfold Revocation.verify
  rw [Outcome.mapErr_eq_ok]
  exact C41_genuine_accepted _ _ _ (C42_sign_genuine _ _ _ hs)

end

/-! ### Examples and refutations, in the toy environment -/

namespace KeysDemo
open TG.Toy

/-- A native build, where RSA exists. -/
@[reducible] def native : LawfulEnv := env false false

/-- RSA key consisting of `n` bytes 1. -/
def ones (n : Nat) : @PublicKey native.toEnv := @PublicKey.rsa native.toEnv (List.replicate n 1) rfl

/-- The time 0x0101010101010101. -/
def t0 : Dur := Dur.ofSecs (UInt64.ofNat 0x0101010101010101)

end KeysDemo

open TG.Toy KeysDemo

/-- **C41 fails** (finding F1): a Secp256k1 key accepts a signature that its scheme rejects. -/
theorem C41_verify_sound_fails :
    ∃ (pk : PublicKey) (msg : Bytes) (s : Signature), pk.verify msg s = .ok () ∧ ¬ pk.Accepts msg s.raw :=
  ⟨(skp 1).pub, [1, 2, 3], .secp256k1 [0x30], by decide +kernel, by
    simp only [PublicKey.Accepts, KeyPair.pub, skp]; decide +kernel⟩

/-- **C40 fails** (finding F16): with an RSA key of 256 bytes the revocation's message is the message of a trust. -/
theorem C40_no_confusion_fails :
    ∃ (env : LawfulEnv) (pk pk' : @PublicKey env.toEnv) (e i r : Dur),
      @Trust.metadata env.toEnv pk e i = @Revocation.metadata env.toEnv pk' r :=
  ⟨native, ones 249, ones 256, t0, s 7, s 7, by decide +kernel⟩

/-- C38: a trust that verifies at its expiry but not later, and not under another key. -/
example : (trust 1 2 50 10).verify (pk 1) (s 50) = .ok () ∧ (trust 1 2 50 10).verify (pk 1) (s 51) = .err .expired ∧
    (trust 1 2 50 10).verify (pk 3) (s 50) = .err (.signatureError .ed25519) := by decide +kernel

/-- C41 (positive): an Ed25519 key. -/
example : (pk 1).NotSecp ∧ (pk 1).Accepts [1] (signature (kp 1) [1]).raw ∧ ¬ (pk 1).Accepts [1] (signature (kp 2) [1]).raw := by
  refine ⟨trivial, ?_, ?_⟩
  · show Env.edVerify _ _ _ = true
    decide +kernel
  · show ¬ Env.edVerify _ _ _ = true
    decide +kernel

/-- C42, C67: pairs of both kinds can sign and be written. -/
example : (kp 1).CanSign [1] ∧ (skp 1).CanSign [1] ∧ (∃ b, (kp 1).toVec = .ok b) ∧ (∃ b, (skp 1).secret = .ok b) :=
  ⟨trivial, trivial, ⟨_, rfl⟩, ⟨_, rfl⟩⟩

/-- C42 for RSA. -/
example : @KeyPair.CanSign native.toEnv (@KeyPair.rsa native.toEnv [1, 2] rfl) [3] := rfl

/-- C43: the same bytes under another label. -/
example : (Signature.ed25519 [1, 2]).raw = (Signature.secp256k1 [1, 2]).raw ∧
    (Signature.ed25519 [1, 2] : Signature) ≠ .secp256k1 [1, 2] := by decide

/-- C40, C66: keys that are not RSA. -/
example : (pk 1).NotRsa ∧ (skp 1).pub.NotRsa ∧ pk 1 ≠ (skp 1).pub := ⟨trivial, trivial, by decide⟩

/-- C68: a 2048-bit key. -/
example : (List.replicate 270 (7 : UInt8)).length + 64 < 2 ^ 64 := by decide +kernel

end TG
