/-
Key pairs and libp2p key pairs: C94.
-/
import Verif.Model.Libp2p
import Verif.Props.Keys
import Verif.Spec.Toy

namespace TG

section
variable [Env]

/-- **C94**, there and back: a key pair converts to a libp2p key pair, never panicking, and that converts back to the same pair. -/
theorem C94_roundtrip (kp : KeyPair) : ∃ l, kp.toLibp2p = .ok l ∧ KeyPair.ofLibp2p l = .ok kp := by
  cases kp with
  | ed25519 sk l =>
    refine ⟨.ed25519 sk l, by simp [KeyPair.toLibp2p, l], ?_⟩
    have h : KeyPair.edDecode (sk ++ Env.edPublic sk) = .ok (.ed25519 sk l) :=
      C67_vec_roundtrip (.ed25519 sk l) (sk ++ Env.edPublic sk) rfl
    show (KeyPair.edDecode (sk ++ Env.edPublic sk)).expect = _
    rw [h]; rfl
  | rsa k n => exact ⟨.rsa k n, rfl, rfl⟩
  | secp256k1 sk l v =>
    refine ⟨.secp256k1 sk l v, by simp [KeyPair.toLibp2p, l, v], ?_⟩
    show (KeyPair.secpFromBytes sk).expect = _
    have h : KeyPair.secpFromBytes sk = .ok (.secp256k1 sk l v) := C67_vec_roundtrip (.secp256k1 sk l v) sk rfl
    rw [h]; rfl

/-- **C94**, the other way round: every libp2p key pair is read, never panicking, and written back unchanged. -/
theorem C94_roundtrip_libp2p (l : Libp2pKeypair) : ∃ kp, KeyPair.ofLibp2p l = .ok kp ∧ kp.toLibp2p = .ok l := by
  have key : ∃ kp : KeyPair, kp.toLibp2p = .ok l := by
    cases l with
    | ed25519 sk hl => exact ⟨.ed25519 sk hl, by simp [KeyPair.toLibp2p, hl]⟩
    | rsa k n => exact ⟨.rsa k n, rfl⟩
    | secp256k1 sk hl v => exact ⟨.secp256k1 sk hl v, by simp [KeyPair.toLibp2p, hl, v]⟩
  obtain ⟨kp, hk⟩ := key
  obtain ⟨l', h, h'⟩ := C94_roundtrip kp
  cases h.symm.trans hk
  exact ⟨kp, h', hk⟩

/-- **C94**, same identity: both pairs have the same public key, so the same peer id. -/
theorem C94_same_identity (kp : KeyPair) (l : Libp2pKeypair) (h : kp.toLibp2p = .ok l) :
    l.pub = kp.pub.toLibp2p ∧ l.peerId = kp.getPeerId := by
  have key : l.pub = kp.pub.toLibp2p := by
    cases kp with
    | ed25519 sk hl =>
      simp only [KeyPair.toLibp2p, hl, dite_true] at h
      cases h; rfl
    | rsa k n => cases h; rfl
    | secp256k1 sk hl v =>
      simp only [KeyPair.toLibp2p, hl, v, dite_true] at h
      cases h; rfl
  refine ⟨key, ?_⟩
  unfold Libp2pKeypair.peerId KeyPair.getPeerId PublicKey.toPeerId
  rw [key]

end

/-! Witnesses -/

section
open TG.Toy

set_option maxRecDepth 100000

/-- ed25519.rs:198-207 and secp256k1.rs:249-258, on numbered keys: the pairs agree, and different kinds of pairs have different peer ids. -/
example : (∃ l, (kp 1).toLibp2p = .ok l ∧ KeyPair.ofLibp2p l = .ok (kp 1)) ∧
    (∃ l, (skp 1).toLibp2p = .ok l ∧ KeyPair.ofLibp2p l = .ok (skp 1)) ∧ (kp 1).getPeerId ≠ (skp 1).getPeerId :=
  ⟨C94_roundtrip _, C94_roundtrip _, by decide +kernel⟩

/-- RSA pairs exist outside wasm32. -/
example : letI : LawfulEnv := env false false
    ∃ l, (KeyPair.rsa [1, 2, 3] rfl).toLibp2p = .ok l ∧ l.peerId = (KeyPair.rsa [1, 2, 3] rfl).getPeerId :=
  letI : LawfulEnv := env false false
  ⟨.rsa [1, 2, 3] rfl, rfl, (C94_same_identity _ _ rfl).2⟩

end

end TG
