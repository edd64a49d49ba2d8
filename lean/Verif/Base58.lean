/-
Base58 (Bitcoin alphabet), as provided by the `bs58` crate that /repo uses for keys, signatures and
peer ids: `bs58::encode(x).into_string()` and `bs58::decode(s).into_vec()`
(keypair/src/public_key.rs:93-98, trust-graph/src/trust.rs:234-268, trust-graph/src/certificate.rs:296-338,
trust-graph/src/public_key_hashable.rs, service/src/dto.rs).

The crate is a dependency, not part of /repo.  It is modelled by the documented meaning of the format: the bytes are
read as a big-endian number written in base 58, and each leading zero byte is one leading `1`.
-/
import Verif.Basic
import Mathlib.Data.List.Induction
import Mathlib.Data.List.GetD
import Mathlib.Data.List.TakeWhile

namespace TG.Base58

/-- Big-endian digits of `n` in base `b`, most significant first, prepended to `acc`; `fuel ≥ n` suffices. -/
def toDigits (b : Nat) : Nat → Nat → List Nat → List Nat
  | 0, _, acc => acc
  | fuel + 1, n, acc => if n = 0 then acc else toDigits b fuel (n / b) (n % b :: acc)

/-- The number with the given big-endian digits. -/
def ofDigits (b : Nat) (ds : List Nat) : Nat := ds.foldl (fun a d => a * b + d) 0

/-- Canonical big-endian digits (no leading zero). -/
def digits (b n : Nat) : List Nat := toDigits b n n []

/-- `bs58::Alphabet::BITCOIN`. -/
def alphabet : Str := "123456789ABCDEFGHJKLMNPQRSTUVWXYZabcdefghijkmnopqrstuvwxyz".toList

/-- Character of a digit. -/
def digitChar (d : Nat) : Char := alphabet.getD d '1'

/-- Digit of a character, `none` for characters outside the alphabet. -/
def charDigit (c : Char) : Option Nat :=
  let i := alphabet.idxOf c
  if i < 58 then some i else none

/-- `bs58::encode(bs).into_string()`. -/
def encode (bs : Bytes) : Str :=
  let z := bs.takeWhile (· == 0)
  let r := bs.dropWhile (· == 0)
  z.map (fun _ => '1') ++ (digits 58 (ofDigits 256 (r.map UInt8.toNat))).map digitChar

/-- `bs58::decode(s).into_vec()`; `none` stands for the crate's decode error. -/
def decode (s : Str) : Option Bytes := do
  let ds ← s.mapM charDigit
  let z := ds.takeWhile (· == 0)
  let r := ds.dropWhile (· == 0)
  some (z.map (fun _ => 0) ++ (digits 256 (ofDigits 58 r)).map UInt8.ofNat)

/-! ### Digits -/

theorem toDigits_append (b : Nat) : ∀ (fuel n : Nat) (acc : List Nat),
    toDigits b fuel n acc = toDigits b fuel n [] ++ acc
  | 0, _, _ => rfl
  | fuel + 1, n, acc => by
    unfold toDigits
    split
    · rfl
    · rw [toDigits_append b fuel (n / b) (n % b :: acc), toDigits_append b fuel (n / b) [n % b]]
      simp

theorem toDigits_fuel {b : Nat} (hb : 2 ≤ b) : ∀ (f g n : Nat), n ≤ f → n ≤ g →
    toDigits b f n [] = toDigits b g n []
  | 0, g, n, hf, _ => by
    have : n = 0 := by omega
    subst this; cases g <;> simp [toDigits]
  | f + 1, 0, n, _, hg => by
    have : n = 0 := by omega
    subst this; simp [toDigits]
  | f + 1, g + 1, n, hf, hg => by
    unfold toDigits
    split
    · rfl
    · next h =>
      rw [toDigits_append b f, toDigits_append b g]
      have h1 : n / b < n := Nat.div_lt_self (by omega) (by omega)
      rw [toDigits_fuel hb f g (n / b) (by omega) (by omega)]

theorem digits_zero (b : Nat) : digits b 0 = [] := rfl

theorem digits_pos {b n : Nat} (hb : 2 ≤ b) (hn : 0 < n) :
    digits b n = digits b (n / b) ++ [n % b] := by
  unfold digits
  obtain ⟨m, rfl⟩ : ∃ m, n = m + 1 := ⟨n - 1, by omega⟩
  have h1 : (m + 1) / b < m + 1 := Nat.div_lt_self (by omega) (by omega)
  conv => lhs; unfold toDigits
  rw [if_neg (by omega), toDigits_append]
  rw [toDigits_fuel hb m ((m + 1) / b) ((m + 1) / b) (by omega) (by omega)]

theorem ofDigits_append_singleton (b : Nat) (ds : List Nat) (d : Nat) :
    ofDigits b (ds ++ [d]) = ofDigits b ds * b + d := by
  unfold ofDigits; rw [List.foldl_append]; rfl

theorem ofDigits_digits {b : Nat} (hb : 2 ≤ b) (n : Nat) : ofDigits b (digits b n) = n := by
  induction n using Nat.strongRecOn with
  | ind n ih =>
    rcases Nat.eq_zero_or_pos n with rfl | hn
    · rfl
    · rw [digits_pos hb hn, ofDigits_append_singleton, ih _ (Nat.div_lt_self hn (by omega))]
      exact Nat.div_add_mod' n b

theorem digits_lt {b : Nat} (hb : 2 ≤ b) (n : Nat) : ∀ d ∈ digits b n, d < b := by
  induction n using Nat.strongRecOn with
  | ind n ih =>
    rcases Nat.eq_zero_or_pos n with rfl | hn
    · simp [digits_zero]
    · rw [digits_pos hb hn]
      intro d hd
      rcases List.mem_append.mp hd with h | h
      · exact ih _ (Nat.div_lt_self hn (by omega)) d h
      · rw [List.mem_singleton.mp h]; exact Nat.mod_lt _ (by omega)

/-- The first digit is not zero. -/
theorem digits_head {b : Nat} (hb : 2 ≤ b) (n : Nat) : ∀ d, (digits b n).head? = some d → d ≠ 0 := by
  induction n using Nat.strongRecOn with
  | ind n ih =>
    rcases Nat.eq_zero_or_pos n with rfl | hn
    · simp [digits_zero]
    · rw [digits_pos hb hn]
      intro d hd
      by_cases hq : n / b = 0
      · rw [hq, digits_zero] at hd
        simp only [List.nil_append, List.head?_cons, Option.some.injEq] at hd
        subst hd
        have h1 := Nat.div_add_mod n b
        rw [hq] at h1; omega
      · have hlt : n / b < n := Nat.div_lt_self hn (by omega)
        have hne : digits b (n / b) ≠ [] := by
          intro h0
          have := ofDigits_digits hb (n / b)
          rw [h0] at this
          exact hq this.symm
        apply ih _ hlt d
        rwa [List.head?_append_of_ne_nil _ hne] at hd

theorem digits_eq_nil_iff {b : Nat} (hb : 2 ≤ b) (n : Nat) : digits b n = [] ↔ n = 0 := by
  constructor
  · intro h
    have := ofDigits_digits hb n
    rw [h] at this; exact this.symm
  · rintro rfl; rfl

theorem digits_ofDigits {b : Nat} (hb : 2 ≤ b) : ∀ (ds : List Nat), (∀ d ∈ ds, d < b) →
    (∀ d, ds.head? = some d → d ≠ 0) → digits b (ofDigits b ds) = ds := by
  intro ds
  induction ds using List.reverseRecOn with
  | nil => intros; rfl
  | append_singleton ds d ih =>
    intro hlt hhead
    have hd : d < b := hlt d (by simp)
    have hds : ∀ x ∈ ds, x < b := fun x hx => hlt x (by simp [hx])
    rw [ofDigits_append_singleton]
    have hpos : 0 < ofDigits b ds * b + d := by
      cases ds with
      | nil =>
        have : d ≠ 0 := hhead d (by simp)
        omega
      | cons x xs =>
        have h1 : digits b (ofDigits b (x :: xs)) = x :: xs :=
          ih hds (fun y hy => hhead y (by simpa using hy))
        have h2 : ofDigits b (x :: xs) ≠ 0 := by
          intro h0; rw [h0] at h1; cases h1
        have : 0 < ofDigits b (x :: xs) * b := Nat.mul_pos (by omega) (by omega)
        omega
    rw [digits_pos hb hpos]
    have h1 : (ofDigits b ds * b + d) / b = ofDigits b ds := by
      rw [Nat.add_comm, Nat.add_mul_div_right _ _ (by omega), Nat.div_eq_of_lt hd, Nat.zero_add]
    have h2 : (ofDigits b ds * b + d) % b = d := by
      rw [Nat.add_comm, Nat.add_mul_mod_self_right, Nat.mod_eq_of_lt hd]
    rw [h1, h2]
    congr 1
    apply ih hds
    intro x hx
    cases ds with
    | nil => simp at hx
    | cons y ys => exact hhead x (by simpa using hx)

/-! ### Alphabet -/

theorem charDigit_digitChar : ∀ d, d < 58 → charDigit (digitChar d) = some d := by decide +kernel

theorem charDigit_lt {c : Char} {d : Nat} (h : charDigit c = some d) : d < 58 := by
  unfold charDigit at h
  simp only at h
  split at h
  · next hlt => cases h; exact hlt
  · cases h

theorem digitChar_charDigit {c : Char} {d : Nat} (h : charDigit c = some d) : digitChar d = c := by
  have hlt := charDigit_lt h
  unfold charDigit at h
  simp only at h
  split at h
  · cases h
    unfold digitChar
    have hl : alphabet.length = 58 := by decide +kernel
    rw [List.getD_eq_getElem _ _ (by omega)]
    exact List.getElem_idxOf _
  · cases h

theorem digitChar_zero : digitChar 0 = '1' := by decide +kernel

theorem mapM_charDigit_digitChar : ∀ ds : List Nat, (∀ d ∈ ds, d < 58) →
    (ds.map digitChar).mapM charDigit = some ds
  | [], _ => rfl
  | d :: ds, h => by
    rw [List.map_cons, List.mapM_cons, charDigit_digitChar d (h d (by simp)),
      mapM_charDigit_digitChar ds (fun x hx => h x (by simp [hx]))]
    rfl

theorem map_digitChar_of_mapM : ∀ {s : Str} {ds : List Nat}, s.mapM charDigit = some ds →
    ds.map digitChar = s ∧ ∀ d ∈ ds, d < 58
  | [], ds, h => by
    simp only [List.mapM_nil] at h; cases h; simp
  | c :: s, ds, h => by
    rw [List.mapM_cons] at h
    cases hc : charDigit c with
    | none => rw [hc] at h; cases h
    | some d =>
      cases hs : s.mapM charDigit with
      | none => rw [hc, hs] at h; cases h
      | some es =>
        rw [hc, hs] at h
        cases h
        obtain ⟨h1, h2⟩ := map_digitChar_of_mapM hs
        refine ⟨by rw [List.map_cons, digitChar_charDigit hc, h1], ?_⟩
        intro x hx
        rcases List.mem_cons.mp hx with rfl | hx
        · exact charDigit_lt hc
        · exact h2 x hx

/-! ### Leading zeros -/

theorem takeWhile_zero_map {α β : Type} (p : α → Bool) (v : β) (l : List α) :
    (l.takeWhile p).map (fun _ => v) = List.replicate (l.takeWhile p).length v := by
  rw [List.map_const']

theorem head_dropWhile_ne {α : Type} (p : α → Bool) (l : List α) :
    ∀ d, (l.dropWhile p).head? = some d → p d = false := by
  intro d hd
  have := List.head?_dropWhile_not p l
  rw [hd] at this
  simpa using this

theorem takeWhile_replicate_append {α : Type} [DecidableEq α] (v : α) (n : Nat) (l : List α)
    (h : ∀ d, l.head? = some d → d ≠ v) :
    (List.replicate n v ++ l).takeWhile (· == v) = List.replicate n v := by
  induction n with
  | zero =>
    cases l with
    | nil => rfl
    | cons x xs => simp [h x rfl]
  | succ n ih => simp [List.replicate_succ, ih]

theorem dropWhile_replicate_append {α : Type} [DecidableEq α] (v : α) (n : Nat) (l : List α)
    (h : ∀ d, l.head? = some d → d ≠ v) :
    (List.replicate n v ++ l).dropWhile (· == v) = l := by
  induction n with
  | zero =>
    cases l with
    | nil => rfl
    | cons x xs => simp [h x rfl]
  | succ n ih => simp [List.replicate_succ, ih]

theorem takeWhile_eq_replicate {α : Type} [DecidableEq α] (v : α) (l : List α) :
    l.takeWhile (· == v) = List.replicate (l.takeWhile (· == v)).length v := by
  rw [List.eq_replicate_iff]
  refine ⟨rfl, ?_⟩
  intro b hb
  have := List.mem_takeWhile_imp hb
  simpa using this

theorem map_toNat_ofNat : ∀ (ds : List Nat), (∀ d ∈ ds, d < 256) →
    (ds.map UInt8.ofNat).map UInt8.toNat = ds
  | [], _ => rfl
  | d :: ds, h => by
    simp only [List.map_cons]
    rw [map_toNat_ofNat ds (fun x hx => h x (by simp [hx])), UInt8.toNat_ofNat',
      Nat.mod_eq_of_lt (h d (by simp))]

theorem map_ofNat_toNat (bs : Bytes) : (bs.map UInt8.toNat).map UInt8.ofNat = bs := by
  rw [List.map_map]
  conv => rhs; rw [← List.map_id bs]
  apply List.map_congr_left
  intro x _
  simp

theorem head_map_toNat {r : Bytes} (h : ∀ d, r.head? = some d → d ≠ 0) :
    ∀ d, (r.map UInt8.toNat).head? = some d → d ≠ 0 := by
  cases r with
  | nil => simp
  | cons x xs =>
    intro d hd
    simp only [List.map_cons, List.head?_cons, Option.some.injEq] at hd
    subst hd
    intro h0
    exact h x rfl (UInt8.toNat.inj h0)

/-- Decoding inverts encoding, for every byte string. -/
theorem decode_encode (bs : Bytes) : decode (encode bs) = some bs := by
  set z := bs.takeWhile (· == 0) with hz
  set r := bs.dropWhile (· == 0) with hr
  have hbs : z ++ r = bs := List.takeWhile_append_dropWhile
  have hrhead : ∀ d, r.head? = some d → d ≠ 0 := fun d hd => by
    have := head_dropWhile_ne (· == (0 : UInt8)) bs d hd
    simpa using this
  set n := ofDigits 256 (r.map UInt8.toNat) with hn
  have henc : encode bs = (List.replicate z.length 0 ++ digits 58 n).map digitChar := by
    show z.map (fun _ => '1') ++ (digits 58 n).map digitChar = _
    rw [List.map_append, List.map_replicate, digitChar_zero, List.map_const']
  have hdlt : ∀ d ∈ List.replicate z.length 0 ++ digits 58 n, d < 58 := by
    intro d hd
    rcases List.mem_append.mp hd with h | h
    · rw [(List.mem_replicate.mp h).2]; omega
    · exact digits_lt (by omega) n d h
  unfold decode
  rw [henc, mapM_charDigit_digitChar _ hdlt]
  show some _ = some _
  rw [takeWhile_replicate_append 0 _ _ (digits_head (by omega) n),
    dropWhile_replicate_append 0 _ _ (digits_head (by omega) n), ofDigits_digits (by omega)]
  rw [hn, digits_ofDigits (by omega), map_ofNat_toNat, List.map_replicate]
  · congr 1
    rw [← hbs]
    congr 1
    rw [hz]
    exact (takeWhile_eq_replicate 0 bs).symm
  · intro d hd
    obtain ⟨x, _, rfl⟩ := List.mem_map.mp hd
    exact x.toNat_lt
  · exact head_map_toNat hrhead

/-- Encoding inverts decoding, for every string the decoder accepts. -/
theorem encode_decode {s : Str} {bs : Bytes} (h : decode s = some bs) : encode bs = s := by
  unfold decode at h
  cases hds : s.mapM charDigit with
  | none => rw [hds] at h; cases h
  | some ds =>
    rw [hds] at h
    obtain ⟨hmap, hlt⟩ := map_digitChar_of_mapM hds
    have h' : (ds.takeWhile (· == 0)).map (fun _ => (0 : UInt8))
        ++ (digits 256 (ofDigits 58 (ds.dropWhile (· == 0)))).map UInt8.ofNat = bs :=
      Option.some.inj h
    clear h
    set r := ds.dropWhile (· == 0) with hr
    have hrhead : ∀ d, r.head? = some d → d ≠ 0 := fun d hd => by
      have := head_dropWhile_ne (· == 0) ds d hd
      simpa using this
    have hrlt : ∀ d ∈ r, d < 58 := fun d hd => hlt d ((List.dropWhile_suffix _).mem hd)
    set n := ofDigits 58 r with hn
    rw [List.map_const'] at h'
    have hhead8 : ∀ d, ((digits 256 n).map UInt8.ofNat).head? = some d → d ≠ 0 := by
      intro d hd
      cases hdg : digits 256 n with
      | nil => rw [hdg] at hd; simp at hd
      | cons x xs =>
        rw [hdg] at hd
        simp only [List.map_cons, List.head?_cons, Option.some.injEq] at hd
        subst hd
        have hx0 : x ≠ 0 := digits_head (b := 256) (by omega) n x (by rw [hdg]; rfl)
        have hx : x < 256 := digits_lt (b := 256) (by omega) n x (by rw [hdg]; simp)
        intro h0
        have := congrArg UInt8.toNat h0
        rw [UInt8.toNat_ofNat', Nat.mod_eq_of_lt hx] at this
        exact hx0 this
    subst h'
    unfold encode
    simp only
    rw [takeWhile_replicate_append (0 : UInt8) _ _ hhead8,
      dropWhile_replicate_append (0 : UInt8) _ _ hhead8,
      map_toNat_ofNat _ (digits_lt (by omega) n), ofDigits_digits (by omega), hn,
      digits_ofDigits (by omega) r hrlt hrhead]
    rw [List.map_replicate, ← digitChar_zero, ← List.map_replicate, ← takeWhile_eq_replicate,
      ← List.map_append, hr, List.takeWhile_append_dropWhile, hmap]

theorem encode_inj {a b : Bytes} (h : encode a = encode b) : a = b := by
  have := decode_encode a
  rw [h, decode_encode b] at this
  exact (Option.some.inj this).symm

/-- Encoded text contains only characters of the alphabet (in particular no line breaks). -/
theorem encode_chars (bs : Bytes) : ∀ c ∈ encode bs, c ∈ alphabet := by
  have key : ∀ d, d < 58 → digitChar d ∈ alphabet := by decide +kernel
  intro c hc
  unfold encode at hc
  rcases List.mem_append.mp hc with h | h
  · obtain ⟨_, _, rfl⟩ := List.mem_map.mp h
    decide +kernel
  · obtain ⟨d, hd, rfl⟩ := List.mem_map.mp h
    exact key d (digits_lt (by omega) _ d hd)

end TG.Base58
