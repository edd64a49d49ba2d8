/-
SHA-256 and SHA-512 (FIPS 180-4), written so that the kernel of Lean can compute them.
-/
import Verif.Basic

namespace TG

/-- Evaluate the argument before the body: this is `k n` (`force_eq`). -/
def force {α : Sort _} (n : Nat) (k : Nat → α) : α := Nat.casesOn n (k 0) fun m => k (m + 1)

theorem force_eq {α : Sort _} (n : Nat) (k : Nat → α) : force n k = k n := by cases n <;> rfl

namespace Sha2

/-- What distinguishes the two functions: bytes in a word, the rotations of Σ0, Σ1, σ0, σ1 (§4.1), the constants (§4.2) and the initial value (§5.3). -/
structure Params where
  bytes : Nat
  S0 : Nat × Nat × Nat
  S1 : Nat × Nat × Nat
  s0 : Nat × Nat × Nat
  s1 : Nat × Nat × Nat
  K : List Nat
  H : List Nat

namespace Params

/-- Bits in a word. -/
def bits (P : Params) : Nat := 8 * P.bytes

/-- §3.2, ROTR. -/
def rotr (P : Params) (n x : Nat) : Nat := (x >>> n ||| x <<< (P.bits - n)) % 2 ^ P.bits

/-- §4.1, Σ0 and Σ1. -/
def big (P : Params) (c : Nat × Nat × Nat) (x : Nat) : Nat := P.rotr c.1 x ^^^ P.rotr c.2.1 x ^^^ P.rotr c.2.2 x

/-- §4.1, σ0 and σ1. -/
def small (P : Params) (c : Nat × Nat × Nat) (x : Nat) : Nat := P.rotr c.1 x ^^^ P.rotr c.2.1 x ^^^ (x >>> c.2.2)

/-- §4.1, Ch. -/
def ch (P : Params) (x y z : Nat) : Nat := (x &&& y) ^^^ ((2 ^ P.bits - 1 - x) &&& z)

/-- §4.1, Maj. -/
def maj (x y z : Nat) : Nat := (x &&& y) ^^^ (x &&& z) ^^^ (y &&& z)

/-- §6.2.2 and §6.4.2, step 1: `n` further words of the message schedule; the last word comes first. -/
def schedule (P : Params) : Nat → List Nat → List Nat
  | 0, ws => ws
  | n + 1, ws =>
    force ((P.small P.s1 (ws.getD 1 0) + ws.getD 6 0 + P.small P.s0 (ws.getD 14 0) + ws.getD 15 0) % 2 ^ P.bits) fun x =>
    schedule P n (x :: ws)

/-- Steps 2 and 3: one round for every pair of a constant and a word of the schedule. -/
def rounds (P : Params) : List (Nat × Nat) → (a b c d e f g h : Nat) → List Nat
  | [], a, b, c, d, e, f, g, h => [a, b, c, d, e, f, g, h]
  | (k, w) :: r, a, b, c, d, e, f, g, h =>
    force ((h + P.big P.S1 e + P.ch e f g + k + w) % 2 ^ P.bits) fun t1 =>
    force ((t1 + P.big P.S0 a + maj a b c) % 2 ^ P.bits) fun a' =>
    force ((d + t1) % 2 ^ P.bits) fun e' =>
    rounds P r a' a b c e' e f g

/-- Steps 1 to 4: one block of 16 words. -/
def compress (P : Params) (st block : List Nat) : List Nat :=
  match st with
  | [a, b, c, d, e, f, g, h] =>
    (P.rounds (P.K.zip (P.schedule (P.K.length - 16) block.reverse).reverse) a b c d e f g h).zipWith (fun x y => (x + y) % 2 ^ P.bits) st
  | _ => st

/-- Words of `k` bytes, big-endian (§3.1). -/
def words (k : Nat) : Nat → Bytes → List Nat
  | 0, _ => []
  | n + 1, bs => (bs.take k).foldl (fun a b => 256 * a + b.toNat) 0 :: words k n (bs.drop k)

/-- The bytes of a word. -/
def wordBytes (k x : Nat) : Bytes := (List.range k).map fun i => UInt8.ofNat (x / 256 ^ (k - 1 - i))

/-- §5.1: a bit 1, zeros, and the length in bits as a number of two words. -/
def pad (P : Params) (m : Bytes) : Bytes :=
  m ++ 0x80 :: (List.replicate ((32 * P.bytes - (m.length + 1 + 2 * P.bytes) % (16 * P.bytes)) % (16 * P.bytes)) 0 ++
    wordBytes (2 * P.bytes) (8 * m.length))

/-- All blocks. -/
def hashBlocks (P : Params) : Nat → List Nat → List Nat → List Nat
  | 0, st, _ => st
  | n + 1, st, ws => hashBlocks P n (P.compress st (ws.take 16)) (ws.drop 16)

/-- §6.2 and §6.4: the hash of a byte string. -/
def hash (P : Params) (m : Bytes) : Bytes :=
  let padded := P.pad m
  let ws := words P.bytes (padded.length / P.bytes) padded
  (P.hashBlocks (ws.length / 16) P.H ws).flatMap (wordBytes P.bytes)

theorem rounds_length (P : Params) (l : List (Nat × Nat)) : ∀ a b c d e f g h, (P.rounds l a b c d e f g h).length = 8 := by
  induction l with
  | nil => intros; rfl
  | cons p l ih => intro a b c d e f g h; unfold rounds; simp only [force_eq]; exact ih ..

theorem compress_length (P : Params) (st block : List Nat) : (P.compress st block).length = st.length := by
  unfold compress
  split
  · rw [List.length_zipWith, rounds_length]; rfl
  · rfl

theorem hashBlocks_length (P : Params) (n : Nat) : ∀ st ws, (P.hashBlocks n st ws).length = st.length := by
  induction n with
  | zero => intros; rfl
  | succ n ih => intro st ws; unfold hashBlocks; rw [ih, compress_length]

theorem hash_length (P : Params) (m : Bytes) : (P.hash m).length = P.H.length * P.bytes := by
  unfold hash
  rw [List.length_flatMap]
  simp only [wordBytes, List.length_map, List.length_range]
  rw [List.map_const', List.sum_replicate_nat, hashBlocks_length]

end Params

/-- §4.1.2, §4.2.2, §5.3.3. -/
def p256 : Params where
  bytes := 4
  S0 := (2, 13, 22)
  S1 := (6, 11, 25)
  s0 := (7, 18, 3)
  s1 := (17, 19, 10)
  K := [
  0x428a2f98, 0x71374491, 0xb5c0fbcf, 0xe9b5dba5, 0x3956c25b, 0x59f111f1, 0x923f82a4, 0xab1c5ed5,
  0xd807aa98, 0x12835b01, 0x243185be, 0x550c7dc3, 0x72be5d74, 0x80deb1fe, 0x9bdc06a7, 0xc19bf174,
  0xe49b69c1, 0xefbe4786, 0xfc19dc6, 0x240ca1cc, 0x2de92c6f, 0x4a7484aa, 0x5cb0a9dc, 0x76f988da,
  0x983e5152, 0xa831c66d, 0xb00327c8, 0xbf597fc7, 0xc6e00bf3, 0xd5a79147, 0x6ca6351, 0x14292967,
  0x27b70a85, 0x2e1b2138, 0x4d2c6dfc, 0x53380d13, 0x650a7354, 0x766a0abb, 0x81c2c92e, 0x92722c85,
  0xa2bfe8a1, 0xa81a664b, 0xc24b8b70, 0xc76c51a3, 0xd192e819, 0xd6990624, 0xf40e3585, 0x106aa070,
  0x19a4c116, 0x1e376c08, 0x2748774c, 0x34b0bcb5, 0x391c0cb3, 0x4ed8aa4a, 0x5b9cca4f, 0x682e6ff3,
  0x748f82ee, 0x78a5636f, 0x84c87814, 0x8cc70208, 0x90befffa, 0xa4506ceb, 0xbef9a3f7, 0xc67178f2]
  H := [
  0x6a09e667, 0xbb67ae85, 0x3c6ef372, 0xa54ff53a, 0x510e527f, 0x9b05688c, 0x1f83d9ab, 0x5be0cd19]

/-- §4.1.3, §4.2.3, §5.3.5. -/
def p512 : Params where
  bytes := 8
  S0 := (28, 34, 39)
  S1 := (14, 18, 41)
  s0 := (1, 8, 7)
  s1 := (19, 61, 6)
  K := [
  0x428a2f98d728ae22, 0x7137449123ef65cd, 0xb5c0fbcfec4d3b2f, 0xe9b5dba58189dbbc,
  0x3956c25bf348b538, 0x59f111f1b605d019, 0x923f82a4af194f9b, 0xab1c5ed5da6d8118,
  0xd807aa98a3030242, 0x12835b0145706fbe, 0x243185be4ee4b28c, 0x550c7dc3d5ffb4e2,
  0x72be5d74f27b896f, 0x80deb1fe3b1696b1, 0x9bdc06a725c71235, 0xc19bf174cf692694,
  0xe49b69c19ef14ad2, 0xefbe4786384f25e3, 0xfc19dc68b8cd5b5, 0x240ca1cc77ac9c65,
  0x2de92c6f592b0275, 0x4a7484aa6ea6e483, 0x5cb0a9dcbd41fbd4, 0x76f988da831153b5,
  0x983e5152ee66dfab, 0xa831c66d2db43210, 0xb00327c898fb213f, 0xbf597fc7beef0ee4,
  0xc6e00bf33da88fc2, 0xd5a79147930aa725, 0x6ca6351e003826f, 0x142929670a0e6e70,
  0x27b70a8546d22ffc, 0x2e1b21385c26c926, 0x4d2c6dfc5ac42aed, 0x53380d139d95b3df,
  0x650a73548baf63de, 0x766a0abb3c77b2a8, 0x81c2c92e47edaee6, 0x92722c851482353b,
  0xa2bfe8a14cf10364, 0xa81a664bbc423001, 0xc24b8b70d0f89791, 0xc76c51a30654be30,
  0xd192e819d6ef5218, 0xd69906245565a910, 0xf40e35855771202a, 0x106aa07032bbd1b8,
  0x19a4c116b8d2d0c8, 0x1e376c085141ab53, 0x2748774cdf8eeb99, 0x34b0bcb5e19b48a8,
  0x391c0cb3c5c95a63, 0x4ed8aa4ae3418acb, 0x5b9cca4f7763e373, 0x682e6ff3d6b2b8a3,
  0x748f82ee5defb2fc, 0x78a5636f43172f60, 0x84c87814a1f0ab72, 0x8cc702081a6439ec,
  0x90befffa23631e28, 0xa4506cebde82bde9, 0xbef9a3f7b2c67915, 0xc67178f2e372532b,
  0xca273eceea26619c, 0xd186b8c721c0c207, 0xeada7dd6cde0eb1e, 0xf57d4f7fee6ed178,
  0x6f067aa72176fba, 0xa637dc5a2c898a6, 0x113f9804bef90dae, 0x1b710b35131c471b,
  0x28db77f523047d84, 0x32caab7b40c72493, 0x3c9ebe0a15c9bebc, 0x431d67c49c100d4c,
  0x4cc5d4becb3e42b6, 0x597f299cfc657e2a, 0x5fcb6fab3ad6faec, 0x6c44198c4a475817]
  H := [
  0x6a09e667f3bcc908, 0xbb67ae8584caa73b, 0x3c6ef372fe94f82b, 0xa54ff53a5f1d36f1,
  0x510e527fade682d1, 0x9b05688c2b3e6c1f, 0x1f83d9abfb41bd6b, 0x5be0cd19137e2179]

/-- SHA-256. -/
def sha256 (m : Bytes) : Bytes := p256.hash m

/-- SHA-512. -/
def sha512 (m : Bytes) : Bytes := p512.hash m

theorem sha256_length (m : Bytes) : (sha256 m).length = 32 := p256.hash_length m

/-- The bytes of a text. -/
def ascii (s : String) : Bytes := s.toList.map fun c => UInt8.ofNat c.toNat

set_option maxRecDepth 100000

/-- Published example: SHA-256 of the empty string. -/
example : sha256 (ascii "") =
    Params.wordBytes 32 0xe3b0c44298fc1c149afbf4c8996fb92427ae41e4649b934ca495991b7852b855 := by decide +kernel

/-- Published example: SHA-256 of "abc". -/
example : sha256 (ascii "abc") =
    Params.wordBytes 32 0xba7816bf8f01cfea414140de5dae2223b00361a396177a9cb410ff61f20015ad := by decide +kernel

/-- Published example: SHA-256 of the message of two blocks of FIPS 180-4. -/
example : sha256 (ascii "abcdbcdecdefdefgefghfghighijhijkijkljklmklmnlmnomnopnopq") =
    Params.wordBytes 32 0x248d6a61d20638b8e5c026930c3e6039a33ce45964ff2167f6ecedd419db06c1 := by decide +kernel

/-- Published example: SHA-512 of "abc". -/
example : sha512 (ascii "abc") =
    Params.wordBytes 64 0xddaf35a193617abacc417349ae20413112e6fa4e89a97ea20a9eeee64b55d39a2192992a274fc1a836ba3c23a3feebbd454d4423643ce80e2a9ac94fa54ca49f := by decide +kernel

/-- Published example: SHA-512 of the message of two blocks of FIPS 180-4. -/
example : sha512 (ascii "abcdefghbcdefghicdefghijdefghijkefghijklfghijklmghijklmnhijklmnoijklmnopjklmnopqklmnopqrlmnopqrsmnopqrstnopqrstu") =
    Params.wordBytes 64 0x8e959b75dae313da8cf4f72814fc143f8f7779c6eb9f7fa17299aeadb6889018501d289e4900f7e4331b99dec4b5433ac7d329eeb6dd26545e96e55b874be909 := by decide +kernel

end Sha2
end TG
