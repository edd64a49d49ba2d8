/-
Ed25519 (RFC 8032, section 5.1), written so that the kernel of Lean can compute it.
-/
import Verif.Spec.Sha2

namespace TG.Ed25519Spec

/-- The field has `p` elements. -/
def p : Nat := 2 ^ 255 - 19

/-- The order of the base point. -/
def L : Nat := 2 ^ 252 + 27742317777372353535851937790883648493

/-- The constant of the curve −x² + y² = 1 + d x² y². -/
def d : Nat := 37095705934669439343138083508754565189542113879843219016388785533085940283555

/-- A number from its little-endian bytes. -/
def leNat : Bytes → Nat
  | [] => 0
  | b :: bs => b.toNat + 256 * leNat bs

/-- `n` little-endian bytes of a number. -/
def leBytes (n x : Nat) : Bytes := (List.range n).map fun i => UInt8.ofNat (x / 256 ^ i)

/-- `acc * b ^ e` in the field, for `e < 2 ^ n`. -/
def powAux : Nat → Nat → Nat → Nat → Nat
  | 0, _, _, acc => acc
  | n + 1, e, b, acc =>
    force (if e % 2 = 1 then acc * b % p else acc) fun acc' =>
    force (b * b % p) fun b' =>
    force (e / 2) fun e' => powAux n e' b' acc'

/-- `b ^ e` in the field. -/
def pow (b e : Nat) : Nat := powAux 256 e b 1

/-- Extended homogeneous coordinates (§5.1.4): x = X/Z, y = Y/Z, xy = T/Z. -/
structure Point where
  X : Nat
  Y : Nat
  Z : Nat
  T : Nat

/-- Point addition (§5.1.4), handed to `k`. -/
def add {α : Sort _} (P Q : Point) (k : Point → α) : α :=
  force ((P.Y + (p - P.X)) * (Q.Y + (p - Q.X)) % p) fun A =>
  force ((P.Y + P.X) * (Q.Y + Q.X) % p) fun B =>
  force (2 * P.T * Q.T * d % p) fun C =>
  force (2 * P.Z * Q.Z % p) fun D =>
  force ((B + (p - A)) % p) fun E =>
  force ((D + (p - C)) % p) fun F =>
  force ((D + C) % p) fun G =>
  force ((B + A) % p) fun H =>
  force (E * F % p) fun X =>
  force (G * H % p) fun Y =>
  force (F * G % p) fun Z =>
  force (E * H % p) fun T => k ⟨X, Y, Z, T⟩

/-- The neutral element. -/
def zero : Point := ⟨0, 1, 1, 0⟩

/-- `Q + s P` for `s < 2 ^ n`, handed to `k`. -/
def mulAux {α : Sort _} : Nat → Nat → Point → Point → (Point → α) → α
  | 0, _, _, Q, k => k Q
  | n + 1, s, P, Q, k =>
    force (s / 2) fun s' =>
    add P P fun P' =>
    if s % 2 = 1 then add Q P fun Q' => mulAux n s' P' Q' k else mulAux n s' P' Q k

/-- `s P`, handed to `k`. -/
def mul {α : Sort _} (s : Nat) (P : Point) (k : Point → α) : α := mulAux 256 s P zero k

/-- The base point (§5.1). -/
def base : Point :=
  let x := 15112221349535400772501151409588531511454012693041857206046113283949847762202
  let y := 46316835694926478169428394003475163141307993866256225615783033603165251855960
  ⟨x, y, 1, x * y % p⟩

/-- The x-coordinate belonging to `y` with the lowest bit `sign` (§5.1.3), handed to `k`. -/
def recoverX {α : Sort _} (y sign : Nat) (none : α) (k : Nat → α) : α :=
  if p ≤ y then none else
  force ((y * y + p - 1) % p) fun u =>
  force ((d * (y * y % p) + 1) % p) fun v =>
  force (v * v % p * v % p) fun v3 =>
  force (u * v3 % p * pow (u * (v3 * v3 % p * v % p) % p) ((p - 5) / 8) % p) fun x =>
  force (v * (x * x % p) % p) fun vxx =>
  force (if vxx = u then x else x * pow 2 ((p - 1) / 4) % p) fun x =>
  if v * (x * x % p) % p ≠ u then none else
  if x = 0 ∧ sign = 1 then none else
  if x % 2 = sign then k x else k (p - x)

/-- Decoding of a point (§5.1.3), handed to `k`. -/
def decode {α : Sort _} (bs : Bytes) (none : α) (k : Point → α) : α :=
  if bs.length ≠ 32 then none else
  force (leNat bs) fun n =>
  force (n % 2 ^ 255) fun y =>
  recoverX y (n / 2 ^ 255) none fun x => force (x * y % p) fun t => k ⟨x, y, 1, t⟩

/-- Encoding of a point (§5.1.2). -/
def encode (P : Point) : Bytes :=
  force (pow P.Z (p - 2)) fun zi =>
  force (P.X * zi % p) fun x =>
  force (P.Y * zi % p) fun y =>
  force (y + 2 ^ 255 * (x % 2)) fun n => leBytes 32 n

/-- The bytes are a public key. -/
def valid (pk : Bytes) : Bool := decode pk false fun _ => true

/-- The same point. -/
def same (P Q : Point) : Bool := P.X * Q.Z % p = Q.X * P.Z % p ∧ P.Y * Q.Z % p = Q.Y * P.Z % p

/-- Verification (§5.1.7), without multiplication by the cofactor. -/
def verify (pk msg sig : Bytes) : Bool :=
  if sig.length ≠ 64 then false else
  force (leNat (sig.drop 32)) fun S =>
  if L ≤ S then false else
  decode pk false fun A =>
  decode (sig.take 32) false fun R =>
  force (leNat (Sha2.sha512 (sig.take 32 ++ pk ++ msg)) % L) fun k =>
  mul S base fun SB =>
  mul k A fun kA =>
  add R kA fun Q => same SB Q

/-- The secret scalar (§5.1.5): the first half of the hash of the secret key with five bits fixed. -/
def scalar (sk : Bytes) : Nat := leNat ((Sha2.sha512 sk).take 32) % 2 ^ 254 / 8 * 8 + 2 ^ 254

/-- The public key (§5.1.5). -/
def publicKey (sk : Bytes) : Bytes := force (scalar sk) fun a => mul a base encode

/-- Signing (§5.1.6). -/
def sign (sk msg : Bytes) : Bytes :=
  force (leNat (Sha2.sha512 ((Sha2.sha512 sk).drop 32 ++ msg)) % L) fun r =>
  force (leNat (mul r base encode)) fun R =>
  force (leNat (Sha2.sha512 (leBytes 32 R ++ publicKey sk ++ msg)) % L) fun k =>
  force ((r + k * scalar sk) % L) fun S => leBytes 32 R ++ leBytes 32 S

set_option maxRecDepth 100000

/-- RFC 8032, §7.1, TEST 1. -/
example :
    let sk := Sha2.Params.wordBytes 32 0x9d61b19deffd5a60ba844af492ec2cc44449c5697b326919703bac031cae7f60
    let pk := Sha2.Params.wordBytes 32 0xd75a980182b10ab7d54bfed3c964073a0ee172f3daa62325af021a68f707511a
    let msg : Bytes := []
    let sig := Sha2.Params.wordBytes 64 0xe5564300c360ac729086e2cc806e828a84877f1eb8e5d974d873e065224901555fb8821590a33bacc61e39701cf9b46bd25bf5f0595bbe24655141438e7a100b
    publicKey sk = pk ∧ sign sk msg = sig ∧ verify pk msg sig = true ∧ verify pk (0 :: msg) sig = false := by decide +kernel

/-- RFC 8032, §7.1, TEST 2. -/
example :
    let sk := Sha2.Params.wordBytes 32 0x4ccd089b28ff96da9db6c346ec114e0f5b8a319f35aba624da8cf6ed4fb8a6fb
    let pk := Sha2.Params.wordBytes 32 0x3d4017c3e843895a92b70aa74d1b7ebc9c982ccf2ec4968cc0cd55f12af4660c
    let msg : Bytes := [0x72]
    let sig := Sha2.Params.wordBytes 64 0x92a009a9f0d4cab8720e820b5f642540a2b27b5416503f8fb3762223ebdb69da085ac1e43e15996e458f3613d0f11d8c387b2eaeb4302aeeb00d291612bb0c00
    publicKey sk = pk ∧ sign sk msg = sig ∧ verify pk msg sig = true ∧ verify pk (0 :: msg) sig = false := by decide +kernel

/-- RFC 8032, §7.1, TEST 3. -/
example :
    let sk := Sha2.Params.wordBytes 32 0xc5aa8df43f9f837bedb7442f31dcb7b166d38535076f094b85ce3a2e0b4458f7
    let pk := Sha2.Params.wordBytes 32 0xfc51cd8e6218a1a38da47ed00230f0580816ed13ba3303ac5deb911548908025
    let msg : Bytes := [0xaf, 0x82]
    let sig := Sha2.Params.wordBytes 64 0x6291d657deec24024827e69c3abe01a30ce548a284743a445e3680d7db5ac3ac18ff9b538d16f290ae67f760984dc6594a7c15e9716ed28dc027beceea1ec40a
    publicKey sk = pk ∧ sign sk msg = sig ∧ verify pk msg sig = true ∧ verify pk (0 :: msg) sig = false := by decide +kernel

end TG.Ed25519Spec
