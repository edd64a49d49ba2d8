/-
C100: reading a secret key from a buffer gives the secret in it and wipes the buffer.
-/
import Verif.Model.SecretBytes
import Verif.Spec.Der
import Verif.Spec.Toy

namespace TG

namespace Der

/-- What is read as a length denotes it. -/
theorem parseLen_sound {bs rest : Bytes} {n : Nat} (h : parseLen bs = some (n, rest)) :
    ∃ l, Spec.Der.Length l n ∧ bs = l ++ rest := by
  cases bs with
  | nil => simp [parseLen] at h
  | cons b bs =>
    simp only [parseLen] at h
    split at h
    · next hb =>
      simp only [Option.some.injEq, Prod.mk.injEq] at h
      obtain ⟨rfl, rfl⟩ := h
      exact ⟨[b], .short b hb, rfl⟩
    · next hb =>
      split at h
      · next hk =>
        simp only [Option.some.injEq, Prod.mk.injEq] at h
        obtain ⟨h1, rfl⟩ := h
        have hlen : (bs.take (b.toNat - 128)).length = b.toNat - 128 := by
          rw [List.length_take]; omega
        refine ⟨b :: bs.take (b.toNat - 128), ?_, by simp⟩
        have := Spec.Der.Length.long b (bs.take (b.toNat - 128)) (by rw [hlen]; omega) (by rw [hlen]; omega)
        rw [show Spec.Der.value (bs.take (b.toNat - 128)) = n by
          rw [← h1]; unfold Spec.Der.value Base58.ofDigits; rw [List.foldl_map]] at this
        exact this
      · cases h

/-- Every denotation of a length is read. -/
theorem parseLen_complete {l rest : Bytes} {n : Nat} (h : Spec.Der.Length l n) :
    parseLen (l ++ rest) = some (n, rest) := by
  cases h with
  | short b hb => simp [parseLen, hb]
  | long b be hb hl =>
    have h1 : ¬ b.toNat < 128 := by omega
    have h2 : b.toNat - 128 = be.length := by omega
    simp only [List.cons_append, parseLen, if_neg h1, h2]
    rw [if_pos ⟨hl, by simp⟩, List.take_left, List.drop_left]
    unfold Spec.Der.value Base58.ofDigits
    rw [List.foldl_map]

theorem parseTlv_sound {bs c rest : Bytes} {t : UInt8} (h : parseTlv bs = some (t, c, rest)) :
    ∃ o, Spec.Der.Object t c o ∧ bs = o ++ rest := by
  cases bs with
  | nil => simp [parseTlv] at h
  | cons b bs =>
    simp only [parseTlv] at h
    split at h
    · cases h
    · next n rest' hp =>
      split at h
      · next hn =>
        simp only [Option.some.injEq, Prod.mk.injEq] at h
        obtain ⟨rfl, rfl, rfl⟩ := h
        obtain ⟨l, hl, rfl⟩ := parseLen_sound hp
        refine ⟨b :: (l ++ rest'.take n), ⟨l, ?_, rfl⟩, by simp⟩
        rw [List.length_take, Nat.min_eq_left hn]; exact hl
      · cases h

theorem parseTlv_complete {o c rest : Bytes} {t : UInt8} (h : Spec.Der.Object t c o) :
    parseTlv (o ++ rest) = some (t, c, rest) := by
  obtain ⟨l, hl, rfl⟩ := h
  simp only [List.cons_append, parseTlv, List.append_assoc]
  rw [parseLen_complete hl]
  simp

theorem Object.ne_nil {o c : Bytes} {t : UInt8} (h : Spec.Der.Object t c o) : 0 < o.length := by
  obtain ⟨l, _, rfl⟩ := h; simp

theorem parseObjects_sound {fuel : Nat} {bs : Bytes} {os : List (UInt8 × Bytes)} (h : parseObjects fuel bs = some os) :
    Spec.Der.Objects bs := by
  induction fuel generalizing bs os with
  | zero =>
    cases bs with
    | nil => exact .nil
    | cons b bs => simp [parseObjects] at h
  | succ fuel ih =>
    cases bs with
    | nil => exact .nil
    | cons b bs =>
      unfold parseObjects at h
      split at h
      · cases h
      · next t c rest hp =>
        split at h
        · cases h
        · next os' ho =>
          obtain ⟨o, ho', e⟩ := parseTlv_sound hp
          rw [e]
          exact .cons ho' (ih ho)

theorem parseObjects_cons {fuel : Nat} {o c rest : Bytes} {t : UInt8} (h : Spec.Der.Object t c o) :
    parseObjects (fuel + 1) (o ++ rest) = (parseObjects fuel rest).map ((t, c) :: ·) := by
  have hp := parseTlv_complete (rest := rest) h
  obtain ⟨b, bs, e⟩ : ∃ b bs, o ++ rest = b :: bs := by
    have := Object.ne_nil h
    cases ho : o ++ rest with
    | nil =>
      rw [List.append_eq_nil_iff] at ho
      rw [ho.1] at this
      cases this
    | cons b bs => exact ⟨b, bs, rfl⟩
  rw [e] at hp ⊢
  simp only [parseObjects, hp]
  cases parseObjects fuel rest <;> rfl

theorem parseObjects_complete {fuel : Nat} {bs : Bytes} (h : Spec.Der.Objects bs) (hf : bs.length ≤ fuel) :
    ∃ os, parseObjects fuel bs = some os := by
  induction h generalizing fuel with
  | nil => exact ⟨[], by cases fuel <;> rfl⟩
  | cons ho _ ih =>
    have := Object.ne_nil ho
    rw [List.length_append] at hf
    obtain ⟨f, rfl⟩ : ∃ f, fuel = f + 1 := ⟨fuel - 1, by omega⟩
    obtain ⟨os, hos⟩ := ih (fuel := f) (by omega)
    exact ⟨_, by rw [parseObjects_cons ho, hos]; rfl⟩

/-- The second object is read exactly if there are two. -/
theorem parseObjects_second {bs c : Bytes} {t : UInt8} :
    (∃ os, parseObjects bs.length bs = some os ∧ os[1]? = some (t, c)) ↔
      ∃ t0 c0 o0 o1 rest, Spec.Der.Object t0 c0 o0 ∧ Spec.Der.Object t c o1 ∧ Spec.Der.Objects rest ∧
        bs = o0 ++ (o1 ++ rest) := by
  constructor
  · rintro ⟨os, ho, h1⟩
    have hO := parseObjects_sound ho
    cases hO with
    | nil => simp [parseObjects] at ho; subst ho; simp at h1
    | @cons t0 c0 o0 rest0 h0 hr =>
      have := Object.ne_nil h0
      obtain ⟨f, hf⟩ : ∃ f, (o0 ++ rest0).length = f + 1 := ⟨(o0 ++ rest0).length - 1, by rw [List.length_append]; omega⟩
      rw [hf, parseObjects_cons h0] at ho
      cases hr with
      | nil =>
        cases f <;> (simp [parseObjects] at ho; subst ho; simp at h1)
      | @cons t1 c1 o1 rest1 h1' hr1 =>
        have := Object.ne_nil h1'
        have e2 := List.length_append (as := o0) (bs := o1 ++ rest1)
        have e3 := List.length_append (as := o1) (bs := rest1)
        obtain ⟨g, rfl⟩ : ∃ g, f = g + 1 := ⟨f - 1, by omega⟩
        rw [parseObjects_cons h1'] at ho
        cases hp : parseObjects g rest1 with
        | none => rw [hp] at ho; cases ho
        | some os1 =>
          rw [hp] at ho
          simp only [Option.map_some, Option.some.injEq] at ho
          subst ho
          simp only [List.getElem?_cons_succ, List.getElem?_cons_zero, Option.some.injEq, Prod.mk.injEq] at h1
          obtain ⟨rfl, rfl⟩ := h1
          exact ⟨t0, c0, o0, o1, rest1, h0, h1', hr1, rfl⟩
  · rintro ⟨t0, c0, o0, o1, rest, h0, h1, hr, rfl⟩
    have l0 := Object.ne_nil h0
    have l1 := Object.ne_nil h1
    obtain ⟨f, hf⟩ : ∃ f, (o0 ++ (o1 ++ rest)).length = f + 1 + 1 ∧ rest.length ≤ f :=
      ⟨(o0 ++ (o1 ++ rest)).length - 2, by simp only [List.length_append]; omega,
        by simp only [List.length_append]; omega⟩
    obtain ⟨os, hos⟩ := parseObjects_complete hr hf.2
    refine ⟨(t0, c0) :: (t, c) :: os, ?_, rfl⟩
    rw [hf.1, parseObjects_cons h0, parseObjects_cons h1, hos]
    rfl

end Der

namespace SecretBytes
variable [Env]

omit [Env] in
theorem zeroize_eq (buf : Bytes) : buf.map (fun _ => (0 : UInt8)) = List.replicate buf.length 0 := by
  induction buf with
  | nil => rfl
  | cons b bs ih => simp [List.replicate_succ, ih]

/-- What a reader that wipes as its last step leaves in the buffer. -/
def left {α : Type} (o : Outcome DecodingError α) (buf : Bytes) : Bytes :=
  match o with
  | .ok _ => List.replicate buf.length 0
  | _ => buf

omit [Env] in
/-- A reader that wipes as its last step. -/
theorem wipe_last {α : Type} (f : Bytes → Outcome DecodingError α) (buf : Bytes) :
    ((do let b ← contents; let k ← M.lift (f b); zeroize; return k : M Bytes DecodingError α)) buf
      = (f buf, left (f buf) buf) := by
  simp only [M.bind_run, contents, M.lift_run]
  cases f buf <;> simp [zeroize, left]

theorem edKeypair_run (buf : Bytes) : edKeypair buf
    = (KeyPair.edDecode buf, left (KeyPair.edDecode buf) buf) :=
  wipe_last _ _

theorem edSecret_run (buf : Bytes) : edSecret buf
    = (KeyPair.fromSecretKey buf .ed25519, left (KeyPair.fromSecretKey buf .ed25519) buf) :=
  wipe_last (fun b => KeyPair.fromSecretKey b .ed25519) _

theorem secpSecret_run (buf : Bytes) : secpSecret buf
    = (KeyPair.secpFromBytes buf, left (KeyPair.secpFromBytes buf) buf) :=
  wipe_last _ _

theorem rsaPkcs8_run (parse : Bytes → Option Bytes) (h : Env.wasm = false) (buf : Bytes) :
    rsaPkcs8 parse h buf = match parse buf with
      | some k => (.ok (.rsa k h), List.replicate buf.length 0)
      | none => (.err .rsa, buf) := by
  unfold rsaPkcs8
  simp only [M.bind_run, contents, M.lift_run]
  cases parse buf <;> simp [zeroize]

theorem secpDer_run (buf : Bytes) : secpDer buf = match Der.parseSequence buf with
    | none => (.err .secp256k1, buf)
    | some os => (match os[1]? with
        | some (t, c) => if t = 0x04 then KeyPair.secpFromBytes c else .err .secp256k1
        | none => .err .secp256k1, List.replicate buf.length 0) := by
  unfold secpDer
  simp only [M.bind_run, contents, M.lift_run]
  cases Der.parseSequence buf with
  | none => rfl
  | some os =>
    simp only [zeroize, zeroize_eq]
    cases os[1]? with
    | none => rfl
    | some o =>
      obtain ⟨t, c⟩ := o
      by_cases ht : t = 0x04
      · simp [Der.octetString, ht]
      · simp [Der.octetString, ht]

end SecretBytes

open SecretBytes

/-- The ways to read a secret key from a buffer. -/
inductive Reader [Env] : M Bytes DecodingError KeyPair → Prop
  | edKeypair : Reader edKeypair
  | edSecret : Reader edSecret
  | secpSecret : Reader secpSecret
  | secpDer : Reader secpDer
  | rsaPkcs8 (parse : Bytes → Option Bytes) (h : Env.wasm = false) : Reader (rsaPkcs8 parse h)

section
variable [Env]

theorem KeyPair.edDecode_cases (buf : Bytes) :
    (∃ e, KeyPair.edDecode buf = .err e) ∨
      ∃ sk hl, buf = sk ++ Env.edPublic sk ∧ KeyPair.edDecode buf = .ok (.ed25519 sk hl) := by
  unfold KeyPair.edDecode
  split
  · split
    · next hl =>
      split
      · next he =>
        exact .inr ⟨_, hl, by rw [he, List.take_append_drop], rfl⟩
      · exact .inl ⟨_, rfl⟩
    · exact .inl ⟨_, rfl⟩
  · exact .inl ⟨_, rfl⟩

theorem KeyPair.secpFromBytes_cases (buf : Bytes) :
    (∃ e, KeyPair.secpFromBytes buf = .err e) ∨ ∃ hl hv, KeyPair.secpFromBytes buf = .ok (.secp256k1 buf hl hv) := by
  unfold KeyPair.secpFromBytes
  split
  · next hl =>
    split
    · next hv => exact .inr ⟨hl, hv, rfl⟩
    · exact .inl ⟨_, rfl⟩
  · exact .inl ⟨_, rfl⟩

theorem SecretBytes.secpDer_cases (buf : Bytes) :
    (∃ e, secpDer buf = (.err e, buf)) ∨ (∃ e, secpDer buf = (.err e, List.replicate buf.length 0)) ∨
      ∃ k, secpDer buf = (.ok k, List.replicate buf.length 0) := by
  rw [secpDer_run]
  cases Der.parseSequence buf with
  | none => exact .inl ⟨_, rfl⟩
  | some os =>
    refine .inr ?_
    dsimp only
    cases os[1]? with
    | none => exact .inl ⟨_, rfl⟩
    | some o =>
      obtain ⟨t, c⟩ := o
      dsimp only
      split
      · rcases KeyPair.secpFromBytes_cases c with ⟨e, h⟩ | ⟨hl, hv, h⟩
        · exact .inl ⟨e, by rw [h]⟩
        · exact .inr ⟨_, by rw [h]⟩
      · exact .inl ⟨_, rfl⟩

/-- **C100.**  However a secret key is read from a buffer: the reader returns; if it returns a key, the buffer holds only zeros, as many as
before; if it returns an error, the buffer is as it was or holds only zeros. -/
theorem C100_wiped {read : M Bytes DecodingError KeyPair} (h : Reader read) (buf : Bytes) :
    (∃ k, read buf = (.ok k, List.replicate buf.length 0)) ∨
      ∃ e, read buf = (.err e, buf) ∨ read buf = (.err e, List.replicate buf.length 0) := by
  cases h with
  | edKeypair =>
    rcases KeyPair.edDecode_cases buf with ⟨e, he⟩ | ⟨sk, hl, _, he⟩
    · exact .inr ⟨e, .inl (by rw [edKeypair_run, he]; rfl)⟩
    · exact .inl ⟨_, by rw [edKeypair_run, he]; rfl⟩
  | edSecret =>
    by_cases hl : buf.length = 32
    · exact .inl ⟨_, by rw [edSecret_run]; simp only [KeyPair.fromSecretKey, dif_pos hl]; rfl⟩
    · exact .inr ⟨_, .inl (by rw [edSecret_run]; simp only [KeyPair.fromSecretKey, dif_neg hl]; rfl)⟩
  | secpSecret =>
    rcases KeyPair.secpFromBytes_cases buf with ⟨e, he⟩ | ⟨hl, hv, he⟩
    · exact .inr ⟨e, .inl (by rw [secpSecret_run, he]; rfl)⟩
    · exact .inl ⟨_, by rw [secpSecret_run, he]; rfl⟩
  | secpDer =>
    rcases SecretBytes.secpDer_cases buf with ⟨e, he⟩ | ⟨e, he⟩ | ⟨k, he⟩
    · exact .inr ⟨e, .inl he⟩
    · exact .inr ⟨e, .inr he⟩
    · exact .inl ⟨k, he⟩
  | rsaPkcs8 parse hw =>
    rw [rsaPkcs8_run]
    cases parse buf with
    | none => exact .inr ⟨_, .inl rfl⟩
    | some k => exact .inl ⟨_, rfl⟩

/-- **C100.**  The readers of raw secrets and of PKCS#8 leave a buffer they reject as it was. -/
theorem C100_rejected_untouched {read : M Bytes DecodingError KeyPair} (h : Reader read) (hd : read ≠ secpDer)
    (buf : Bytes) {e : DecodingError} (he : (read buf).1 = .err e) : (read buf).2 = buf := by
  cases h with
  | edKeypair => rw [edKeypair_run] at he ⊢; dsimp only at he ⊢; rw [he]; rfl
  | edSecret => rw [edSecret_run] at he ⊢; dsimp only at he ⊢; rw [he]; rfl
  | secpSecret => rw [secpSecret_run] at he ⊢; dsimp only at he ⊢; rw [he]; rfl
  | secpDer => exact absurd rfl hd
  | rsaPkcs8 parse hw =>
    rw [rsaPkcs8_run] at he ⊢
    cases hp : parse buf with
    | none => rfl
    | some k => rw [hp] at he; cases he

/-- **C100.**  The key that is read is the one in the buffer. -/
theorem C100_right_key (buf : Bytes) (kp : KeyPair) :
    ((edSecret buf).1 = .ok kp ↔ kp.keyFormat = .ed25519 ∧ kp.secret = .ok buf) ∧
    ((edKeypair buf).1 = .ok kp ↔ kp.keyFormat = .ed25519 ∧ kp.toVec = .ok buf) ∧
    ((secpSecret buf).1 = .ok kp ↔ kp.keyFormat = .secp256k1 ∧ kp.secret = .ok buf) ∧
    ((secpDer buf).1 = .ok kp ↔
      kp.keyFormat = .secp256k1 ∧ ∃ sk, Spec.Der.EcPrivateKey buf sk ∧ kp.secret = .ok sk) := by
  have secp : ∀ b : Bytes, KeyPair.secpFromBytes b = .ok kp ↔ kp.keyFormat = .secp256k1 ∧ kp.secret = .ok b := by
    intro b
    constructor
    · intro h
      rcases KeyPair.secpFromBytes_cases b with ⟨e, he⟩ | ⟨hl, hv, he⟩
      · rw [h] at he; cases he
      · rw [h] at he; injection he with he; subst he; exact ⟨rfl, rfl⟩
    · rintro ⟨h1, h2⟩
      cases kp with
      | ed25519 sk hl => cases h1
      | rsa k h => cases h1
      | secp256k1 sk hl hv =>
        injection h2 with h2; subst h2
        unfold KeyPair.secpFromBytes
        rw [dif_pos hl, dif_pos hv]
  refine ⟨?_, ?_, ?_, ?_⟩
  · rw [edSecret_run]
    dsimp only [KeyPair.fromSecretKey]
    constructor
    · intro h
      split at h
      · injection h with h; subst h; exact ⟨rfl, rfl⟩
      · cases h
    · rintro ⟨h1, h2⟩
      cases kp with
      | ed25519 sk hl => injection h2 with h2; subst h2; rw [dif_pos hl]
      | rsa k h => cases h1
      | secp256k1 sk hl hv => cases h1
  · rw [edKeypair_run]
    dsimp only
    constructor
    · intro h
      rcases KeyPair.edDecode_cases buf with ⟨e, he⟩ | ⟨sk, hl, hb, he⟩
      · rw [h] at he; cases he
      · rw [h] at he; injection he with he; subst he; rw [hb]; exact ⟨rfl, rfl⟩
    · rintro ⟨h1, h2⟩
      cases kp with
      | ed25519 sk hl =>
        injection h2 with h2; subst h2
        have hp := Env.edPublic_length sk
        have ht : (sk ++ Env.edPublic sk).take 32 = sk := by rw [← hl, List.take_left]
        have hdr : (sk ++ Env.edPublic sk).drop 32 = Env.edPublic sk := by rw [← hl, List.drop_left]
        unfold KeyPair.edDecode
        rw [if_pos (by rw [List.length_append, hl, hp])]
        simp only [ht, hdr, hl, dite_true, if_true]
      | rsa k h => cases h1
      | secp256k1 sk hl hv => cases h1
  · rw [secpSecret_run]; exact secp buf
  · rw [secpDer_run]
    constructor
    · intro h
      cases hp : Der.parseSequence buf with
      | none => rw [hp] at h; cases h
      | some os =>
        rw [hp] at h
        dsimp only at h
        cases ho : os[1]? with
        | none => rw [ho] at h; cases h
        | some o =>
          obtain ⟨t, c⟩ := o
          rw [ho] at h
          dsimp only at h
          split at h
          · next ht =>
            subst ht
            unfold Der.parseSequence at hp
            split at hp
            · next t0 body rest hq =>
              split at hp
              · next h30 =>
                subst h30
                obtain ⟨outer, hO, e⟩ := Der.parseTlv_sound hq
                obtain ⟨t1, c1, o0, o1, r, h0, h1, hr, hb⟩ := Der.parseObjects_second.mp ⟨os, hp, ho⟩
                exact ⟨((secp c).mp h).1, c, ⟨body, outer, rest, t1, c1, o0, o1, r, hO, e, h0, h1, hr, hb⟩,
                  ((secp c).mp h).2⟩
              · cases hp
            · cases hp
          · cases h
    · rintro ⟨hf, sk, ⟨body, outer, junk, t, c, o0, o1, rest, hO, rfl, h0, h1, hr, hb⟩, hs⟩
      obtain ⟨os, hos, h1'⟩ := Der.parseObjects_second.mpr ⟨t, c, o0, o1, rest, h0, h1, hr, hb⟩
      have hp : Der.parseSequence (outer ++ junk) = some os := by
        unfold Der.parseSequence
        rw [Der.parseTlv_complete hO]
        simpa using hos
      rw [hp]
      dsimp only
      rw [h1']
      dsimp only
      rw [if_pos rfl]
      exact (secp sk).mpr ⟨hf, hs⟩

end

end TG

namespace TG.SecretBytesDemo
open TG.Toy

/-- A secret of the toy instance. -/
def secret : Bytes := List.replicate 31 0 ++ [7]

/-- It is read from an EC private key with version, secret and a further element, with bytes after it, and the buffer is wiped. -/
def der : Bytes := Der.tlv 0x30 (Der.tlv 0x02 [1] ++ Der.tlv 0x04 secret ++ Der.tlv 0xA0 [6, 1, 2]) ++ [9, 9]

set_option maxRecDepth 100000 in
example : ((SecretBytes.secpDer der).1.toOption.map (fun k => k.secret)) = some (.ok secret) ∧
    (SecretBytes.secpDer der).2 = List.replicate der.length 0 := by decide +kernel

/-- A SEQUENCE without a second element is rejected, and wiped. -/
example : SecretBytes.secpDer (Der.tlv 0x30 (Der.tlv 0x02 [1])) = (.err .secp256k1, [0, 0, 0, 0, 0]) := by decide +kernel

/-- Something else is rejected and left alone. -/
example : SecretBytes.secpDer [1, 2, 3] = (.err .secp256k1, [1, 2, 3]) := by decide +kernel

example : (SecretBytes.edSecret secret).2 = List.replicate 32 0 := by decide +kernel
example : SecretBytes.edSecret [1, 2, 3] = (.err .invalidLength, [1, 2, 3]) := by decide +kernel

/-- The reader of DER is another function than the readers of raw secrets. -/
example : SecretBytes.edSecret ≠ SecretBytes.secpDer := fun h =>
  absurd (congrArg (fun r => (r [1, 2, 3]).1.toOption.isSome || (r [1, 2, 3]).1 == .err .invalidLength) h) (by decide +kernel)

end TG.SecretBytesDemo
