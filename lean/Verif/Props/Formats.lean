/-
Binary and text formats of trusts and certificates: C46–C49.
-/
import Verif.Proofs.Formats
import Verif.Props.Keys

namespace TG

section
variable [Env]

/-! ### C46, C47, C48: round trips -/

/-- **C46**, exactly when it holds: encoded key and encoded signature have fewer than 256 bytes.  Missing: longer ones (RSA), for which
it is false (`C46_roundtrip_fails`). -/
theorem C46_roundtrip_partial (t : Trust) (hw : t.WholeSeconds) :
    Trust.decode t.encode = .ok t ↔ t.issuedFor.encode.length < 256 ∧ t.signature.encode.length < 256 := by
  rw [Trust.decode_ok_iff]
  exact ⟨fun h => h.2.2, fun h => ⟨rfl, hw, h⟩⟩

/-- Ed25519 and Secp256k1 keys are short enough, so there only the signature matters. -/
theorem C46_short_keys (t : Trust) (hw : t.WholeSeconds) (hk : t.issuedFor.NotRsa) (hs : t.signature.raw.length < 255) :
    Trust.decode t.encode = .ok t := by
  refine (C46_roundtrip_partial t hw).mpr ⟨?_, by simp only [Signature.encode, List.length_cons]; omega⟩
  cases hpk : t.issuedFor with
  | ed25519 b l v => simp [PublicKey.encode, PublicKey.raw, l]
  | rsa b n => rw [hpk] at hk; exact hk.elim
  | secp256k1 b l v => simp [PublicKey.encode, PublicKey.raw, l]

/-- Nothing but encodings is decoded, so two byte strings never decode to the same trust. -/
theorem C46_canonical {arr : Bytes} {t : Trust} (h : Trust.decode arr = .ok t) : arr = t.encode ∧ t.WholeSeconds :=
  ⟨(Trust.decode_ok_iff.mp h).1, (Trust.decode_ok_iff.mp h).2.1⟩

/-- **C47**, exactly when it holds.  Missing: chains of more than 255 trusts and trusts longer than 255 bytes, for which it is false
(`C47_roundtrip_fails`). -/
theorem C47_roundtrip_partial (c : Certificate) (h2 : 2 ≤ c.chain.length) :
    Certificate.decode c.encode = .ok c ↔
      c.chain.length < 256 ∧ ∀ t ∈ c.chain, t.WholeSeconds ∧ t.issuedFor.encode.length < 256 ∧
        t.signature.encode.length < 256 ∧ t.encode.length < 256 := by
  have hd : c.encode.drop 7 = c.chain.flatMap Certificate.block := rfl
  have h6 : c.encode[6]? = some (UInt8.ofNat c.chain.length) := rfl
  rw [Certificate.decode_ok_iff, hd, h6]
  constructor
  · rintro ⟨-, ⟨b, hb, hl⟩, hf, -⟩
    exact ⟨by rw [← hl]; exact b.toNat_lt, hf⟩
  · rintro ⟨hl, hf⟩
    exact ⟨h2, ⟨_, rfl, by rw [UInt8.toNat_ofNat']; omega⟩, hf, List.prefix_rfl⟩

/-- Different certificates never share an encoding as far as they can be decoded at all: decoding what was encoded never yields
another certificate. -/
theorem C47_no_confusion (c c' : Certificate) (h : c.encode = c'.encode) (hl : c.chain.length < 256) (h2 : 2 ≤ c.chain.length)
    (hl' : c'.chain.length < 256)
    (hf : ∀ t ∈ c.chain, t.WholeSeconds ∧ t.issuedFor.encode.length < 256 ∧ t.signature.encode.length < 256 ∧ t.encode.length < 256)
    (hf' : ∀ t ∈ c'.chain, t.WholeSeconds ∧ t.issuedFor.encode.length < 256 ∧ t.signature.encode.length < 256 ∧ t.encode.length < 256) :
    c = c' := by
  have h1 := (C47_roundtrip_partial c h2).mpr ⟨hl, hf⟩
  have h6 : c.encode[6]? = c'.encode[6]? := by rw [h]
  have h6' : (UInt8.ofNat c.chain.length).toNat = (UInt8.ofNat c'.chain.length).toNat :=
    congrArg UInt8.toNat (Option.some.inj h6)
  rw [UInt8.toNat_ofNat', UInt8.toNat_ofNat'] at h6'
  have h3 := (C47_roundtrip_partial c' (by omega)).mpr ⟨hl', hf'⟩
  rw [← h, h1] at h3
  exact Outcome.ok.inj h3

/-- **C48**: the text form is read back, for every certificate. -/
theorem C48_text_roundtrip (c : Certificate) (h : ∀ t ∈ c.chain, t.WholeSeconds) : Certificate.fromStr c.toText = .ok c :=
  Certificate.fromStr_toText c h

/-- **C48** for lists of certificates in serialised form. -/
theorem C48_serde_roundtrip (cs : List Certificate) (h : ∀ c ∈ cs, ∀ t ∈ c.chain, t.WholeSeconds) :
    Certificate.deserializeVec (Certificate.serdeVec cs) = .ok cs :=
  Certificate.deserializeVec_serdeVec cs h

/-- So the text determines the certificate. -/
theorem C48_text_injective (c c' : Certificate) (h : ∀ t ∈ c.chain, t.WholeSeconds) (h' : ∀ t ∈ c'.chain, t.WholeSeconds)
    (he : c.toText = c'.toText) : c = c' := by
  have h1 := C48_text_roundtrip c h
  rw [he, C48_text_roundtrip c' h'] at h1
  exact (Outcome.ok.inj h1).symm

/-! ### C49: malformed input -/

/-- **C49** for keys: the empty byte string is the only input that panics.  Missing: that one (`C49_no_panic_fails`). -/
theorem C49_public_key_partial (bs : Bytes) : PublicKey.decode bs = .panic ↔ bs = [] := by
  constructor
  · intro h
    by_contra hne
    rcases PublicKey.decode_cases hne with ⟨_, h'⟩ | ⟨_, h'⟩ <;> rw [h'] at h <;> cases h
  · rintro rfl; rfl

/-- **C49** for signatures: the empty byte string is the only input that panics. -/
theorem C49_signature_partial (bs : Bytes) : Signature.decode bs = .panic ↔ bs = [] := by
  constructor
  · intro h
    by_contra hne
    rcases Signature.decode_cases hne with ⟨_, h'⟩ | ⟨_, h'⟩ <;> rw [h'] at h <;> cases h
  · rintro rfl; rfl

/-- **C49** for trusts, exactly when it holds: a panic needs an empty key, an empty signature, or bytes after the end.  Missing:
those inputs. -/
theorem C49_trust_partial (arr : Bytes) :
    Trust.decode arr = .panic ↔
      (∃ r, arr = 0 :: r) ∨
      (∃ (pk : PublicKey) (r : Bytes), pk.encode.length < 256 ∧
        arr = UInt8.ofNat pk.encode.length :: (pk.encode ++ 0 :: r)) ∨
      (∃ (pk : PublicKey) (sg : Signature) (r : Bytes), pk.encode.length < 256 ∧ sg.encode.length < 256 ∧ 16 < r.length ∧
        arr = UInt8.ofNat pk.encode.length :: (pk.encode ++ (UInt8.ofNat sg.encode.length :: (sg.encode ++ r)))) :=
  Trust.decode_panic_iff

/-- **C49** for certificates: a panic can only come from a trust inside. -/
theorem C49_certificate_partial (arr : Bytes) (h : Certificate.decode arr = .panic) :
    ∃ bs, bs <:+: arr ∧ Trust.decode bs = .panic :=
  Certificate.decode_panic h

/-- **C49** for certificate texts: a panic needs fewer than two lines, or an empty line where a key or signature should be. -/
theorem C49_text_partial (s : Str) (h : Certificate.fromStr s = .panic) : (lines s).length < 2 ∨ [] ∈ (lines s).drop 2 :=
  Certificate.fromStr_panic h

end

/-! ### Examples and refutations, in the toy environment -/

open TG.Toy KeysDemo

set_option maxRecDepth 100000

namespace FormatsDemo

/-- A trust for an RSA key of the usual size (2048 bits: 270 bytes). -/
def rsaTrust : @Trust native.toEnv :=
  @Trust.mk native.toEnv (ones 270) (s 50) (@Signature.ed25519 native.toEnv [1, 2]) (s 10)

end FormatsDemo

/-- **C46 fails** (finding F12): the length byte of an RSA key is cut to eight bits. -/
theorem C46_roundtrip_fails :
    ∃ (env : LawfulEnv) (t : @Trust env.toEnv), @Trust.WholeSeconds env.toEnv t ∧
      @Trust.decode env.toEnv (@Trust.encode env.toEnv t) ≠ .ok t := by
  refine ⟨native, FormatsDemo.rsaTrust, ⟨rfl, rfl⟩, ?_⟩
  rw [ne_eq, @C46_roundtrip_partial native.toEnv FormatsDemo.rsaTrust ⟨rfl, rfl⟩]
  decide +kernel

/-- **C47 fails** (finding F12): the number of trusts is cut to eight bits. -/
theorem C47_roundtrip_fails :
    ∃ c : Certificate, 2 ≤ c.chain.length ∧ (∀ t ∈ c.chain, t.WholeSeconds ∧ Trust.decode t.encode = .ok t) ∧
      Certificate.decode c.encode ≠ .ok c := by
  refine ⟨⟨List.replicate 258 (trust 1 1 50 10)⟩, by simp, ?_, ?_⟩
  · intro t ht
    obtain rfl := List.eq_of_mem_replicate ht
    exact ⟨⟨rfl, rfl⟩, by decide +kernel⟩
  · rw [ne_eq, C47_roundtrip_partial _ (by simp)]
    simp

/-- **C49 fails** (finding F13): every decoder panics on some input. -/
theorem C49_no_panic_fails :
    PublicKey.decode [] = .panic ∧ Signature.decode [] = .panic ∧ Trust.decode [0] = .panic ∧
      Trust.decode ((trust 1 2 50 10).encode ++ [0]) = .panic ∧
      Certificate.decode ([0, 0, 0, 0, 0, 0, 2] ++ [1, 0]) = .panic ∧
      Certificate.fromStr [] = .panic ∧ Certificate.fromStr "a\nb\n\n\n\n\n".toList = .panic := by
  decide +kernel

/-- C46, C48: a trust between Ed25519 keys, and one for a Secp256k1 key. -/
example : (trust 1 2 50 10).WholeSeconds ∧ (trust 1 2 50 10).issuedFor.NotRsa ∧ (trust 1 2 50 10).signature.raw.length < 255 :=
  ⟨⟨rfl, rfl⟩, trivial, by decide +kernel⟩

/-- C47: a certificate that is read back. -/
example : Certificate.decode (Certificate.encode ⟨[trust 1 1 50 10, trust 1 2 50 10]⟩) =
    .ok ⟨[trust 1 1 50 10, trust 1 2 50 10]⟩ := by decide +kernel

/-- C49: inputs that are refused without a panic. -/
example : Trust.decode [3, 9, 9, 9] = .err (.publicKeyError .invalidTypeByte) ∧ Trust.decode [] = .err .decodeErrorInvalidSize ∧
    Certificate.fromStr "a\nb\nc".toList = .err .incorrectCertificateFormat := by decide +kernel

end TG
