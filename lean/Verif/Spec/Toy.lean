/-
A concrete environment satisfying all laws.  It is used only to exhibit concrete, non-trivial executions
(non-vacuity examples and counterexamples); "signatures" simply spell out signer and message.
-/
import Verif.Model.Sqlite

namespace TG.Toy

/-- First `n` bytes, padded with zeros. -/
def fix (n : Nat) (b : Bytes) : Bytes := (b ++ List.replicate n 0).take n

theorem fix_length (n : Nat) (b : Bytes) : (fix n b).length = n := by
  simp [fix]

theorem fix_of_length {n : Nat} {b : Bytes} (h : b.length = n) : fix n b = b := by
  unfold fix
  rw [← h, List.take_left]

/-- A polynomial hash, as 32 little-endian bytes. -/
def hash (m : Bytes) : Bytes :=
  let h := m.foldl (fun a b => (a * 257 + b.toNat + 1) % 2 ^ 256) 0
  (List.range 32).map (fun i => UInt8.ofNat (h / 256 ^ i))

/-- Reader for the two-field protobuf message with one-byte lengths. -/
def pbDecode : Bytes → Option (Nat × Bytes)
  | a :: t :: c :: n :: data =>
    if a = 0x08 ∧ c = 0x12 ∧ data.length = n.toNat then some (t.toNat, data) else none
  | _ => none

/-- The toy environment, for either target and build mode. -/
@[reducible] def env (wasm debug : Bool) : LawfulEnv where
  wasm := wasm
  debug := debug
  sha256 := hash
  sha256_length m := by simp [hash]
  edValid _ := true
  edVerify pk msg sig := sig == fix 32 pk ++ fix 32 msg
  edPublic sk := fix 32 sk
  edPublic_length sk := fix_length 32 sk
  edPublic_valid _ := rfl
  edSign sk msg := fix 32 sk ++ fix 32 msg
  secpValid _ := true
  secpParseDer sig := sig.head? == some 0x30
  secpVerify pk h sig := sig == 0x30 :: (pk ++ h)
  secpValidSk _ := true
  secpPublic sk := 0x02 :: fix 32 sk
  secpPublic_length sk := by simp [fix_length]
  secpPublic_valid _ := rfl
  secpSign sk h := 0x30 :: ((0x02 :: fix 32 sk) ++ h)
  rsaVerify pk msg sig := sig == pk ++ msg
  rsaPublic kp := kp
  rsaSign kp msg := some (kp ++ msg)
  pbDecode := pbDecode
  scan _ l := l
  scan_perm _ _ := List.Perm.refl _
  ed_sign sk msg := by
    rw [fix_of_length (fix_length 32 sk)]; simp
  secp_sign_der _ _ := rfl
  secp_sign _ _ := by simp
  rsa_sign kp msg s h := by
    cases h; simp
  pb_roundtrip t data ht hd := by
    have h1 : (UInt8.ofNat t).toNat = t := by rw [UInt8.toNat_ofNat']; omega
    have h2 : (UInt8.ofNat data.length).toNat = data.length := by rw [UInt8.toNat_ofNat']; omega
    simp only [List.cons_append, List.nil_append, pbDecode, h1, h2, and_self, if_true]

/-- The service target: wasm32, release build. -/
instance serviceEnv : LawfulEnv := env true false

/-- Ed25519 key pair number `n`. -/
def kp (n : Nat) : KeyPair := .ed25519 (fix 32 [UInt8.ofNat n]) (fix_length 32 _)

/-- Secp256k1 key pair number `n`. -/
def skp (n : Nat) : KeyPair := .secp256k1 (fix 32 [UInt8.ofNat n]) (fix_length 32 _) rfl

def pk (n : Nat) : PublicKey := (kp n).pub

/-- Seconds. -/
def s (n : Nat) : Dur := Dur.ofSecs (UInt64.ofNat n)

/-- The signature made by key pair `k`, empty if signing fails. -/
def signature (k : KeyPair) (msg : Bytes) : Signature :=
  match k.sign msg with
  | .ok sig => sig
  | _ => .ed25519 []

/-- Trust from key `a` to key `b`. -/
def trust (a b : Nat) (expires issued : Nat) : Trust :=
  Trust.new (pk b) (s expires) (s issued) (signature (kp a) (Trust.signatureBytes (pk b) (s expires) (s issued)))

/-- Revocation of key `b` by key `a`. -/
def revocation (a b : Nat) (at' : Nat) : Revocation :=
  Revocation.new (pk a) (pk b) (s at') (signature (kp a) (Revocation.signatureBytes (pk b) (s at')))

end TG.Toy
