/-
C132: the files of certificates are read as what was written.
-/
import Verif.Model.DistroText
import Verif.Model.Shipped
import Verif.Proofs.Json
import Verif.Props.DebugTrust

namespace TG
namespace Spec

/-- A JSON value in which every number is written as JSON writes numbers. -/
inductive Proper : Json → Prop
  | null : Proper .null
  | bool (b : Bool) : Proper (.bool b)
  | num {t : Str} : NumberText t → Proper (.num t)
  | str (s : Str) : Proper (.str s)
  | arr {vs : List Json} : (∀ v ∈ vs, Proper v) → Proper (.arr vs)
  | obj {fs : List (Str × Json)} : (∀ f ∈ fs, Proper f.2) → Proper (.obj fs)

/-- The object has exactly one field of this name, with this value. -/
def HasField (fs : List (Str × Json)) (name : Str) (v : Json) : Prop :=
  ∃ a b, fs = a ++ (name, v) :: b ∧ ∀ f ∈ a ++ b, f.1 ≠ name

/-- A record with the given fields: an object that has each of them once, in any order and perhaps with other fields, or an array of their values in the given
order. -/
def RecordValue (names : List Str) (v : Json) (vs : List Json) : Prop :=
  (∃ fs, v = .obj fs ∧ List.Forall₂ (HasField fs) names vs) ∨ (v = .arr vs ∧ vs.length = names.length)

/-- A number without sign, point and exponent. -/
def NatValue (v : Json) (n : Nat) : Prop := ∃ t, v = .num t ∧ (∀ c ∈ t, c ∈ "0123456789".toList) ∧ decimal t = n

/-- An array of things. -/
def ArrayValue {α : Type} (P : Json → α → Prop) (v : Json) (xs : List α) : Prop := ∃ vs, v = .arr vs ∧ List.Forall₂ P vs xs

/-- A trust in JSON. -/
def TrustValue (v : Json) (t : TrustDto) : Prop :=
  ∃ b e, RecordValue ["issued_for".toList, "expires_at".toList, "signature".toList, "sig_type".toList, "issued_at".toList] v
      [.str t.issuedFor, b, .str t.signature, .str t.sigType, e] ∧ NatValue b t.expiresAt.toNat ∧ NatValue e t.issuedAt.toNat

/-- A certificate in JSON. -/
def CertValue (v : Json) (c : CertDto) : Prop := ∃ a, RecordValue ["chain".toList] v [a] ∧ ArrayValue TrustValue a c.chain

/-- The certificates of the distribution in JSON. -/
def CertsValue (v : Json) (c : Distro.Certs) : Prop :=
  ∃ b e, RecordValue ["root_node".toList, "max_chain_length".toList, "certs".toList] v [.str c.rootNode, b, e] ∧ NatValue b c.maxChainLength.toNat ∧
    ArrayValue CertValue e c.certs

end Spec

namespace DistroProof
open Spec Json JsonProof Distro

/-! Writing. -/

theorem hex_ctrl (n : Nat) (h : n < 32) : Hex4 ['0', '0', hexDigit (n / 16), hexDigit (n % 16)] n := by
  refine ⟨'0', '0', hexDigit (n / 16), hexDigit (n % 16), 0, 0, n / 16, n % 16, rfl, ⟨by omega, Or.inl rfl⟩, ⟨by omega, Or.inl rfl⟩, ⟨by omega, Or.inl ?_⟩,
    ⟨by omega, Or.inl ?_⟩, by omega⟩
  · revert n; decide
  · revert n; decide

theorem char_eq {c : Char} {n : Nat} (h : c.toNat = n) : c = Char.ofNat n := by rw [← h, Char.ofNat_toNat]

theorem quoteChar_text (c : Char) : CharText c (quoteChar c) := by
  unfold quoteChar
  split
  · next h => subst h; exact .quote
  split
  · next h => subst h; exact .backslash
  split
  · next h => rw [char_eq h]; exact .backspace
  split
  · next h => rw [char_eq h]; exact .formFeed
  split
  · next h => subst h; exact .lineFeed
  split
  · next h => subst h; exact .carriageReturn
  split
  · next h => subst h; exact .tab
  split
  · next h => exact .unicode _ _ (hex_ctrl _ h)
  · next h1 h2 _ _ _ _ _ h3 => exact .plain _ (by omega) h1 h2

theorem quote_text (s : Str) : StringText s (s.flatMap quoteChar) := by
  induction s with
  | nil => exact .nil
  | cons c s ih => exact .cons (quoteChar_text c) ih

theorem white_nil : White [] := fun _ h => by cases h

theorem all_text : ∀ (v : Json) (vs : List Json), (∀ w ∈ v :: vs, ItemText (.value w) (stringify w)) → ItemText (.elements (v :: vs)) (stringifyAll (v :: vs))
  | v, [], h => by
    have := ItemText.element (h v (by simp)) white_nil
    rw [List.append_nil] at this
    rw [stringifyAll]; exact this
  | v, w :: vs, h => by
    have := ItemText.elements (h v (by simp)) white_nil white_nil (all_text w vs fun x hx => h x (List.mem_cons_of_mem _ hx))
    rw [List.append_nil, List.append_assoc] at this
    rw [stringifyAll]; exact this

theorem fields_text : ∀ (f : Str × Json) (fs : List (Str × Json)), (∀ g ∈ f :: fs, ItemText (.value g.2) (stringify g.2)) →
    ItemText (.members (f :: fs)) (stringifyFields (f :: fs))
  | (k, v), [], h => by
    have := ItemText.member (quote_text k) white_nil white_nil (h (k, v) (by simp)) white_nil
    rw [stringifyFields]
    simpa [quote] using this
  | (k, v), g :: fs, h => by
    have := ItemText.members (quote_text k) white_nil white_nil (h (k, v) (by simp)) white_nil white_nil
      (fields_text g fs fun x hx => h x (List.mem_cons_of_mem _ hx))
    rw [stringifyFields]
    simpa [quote] using this

theorem stringify_item {v : Json} (h : Proper v) : ItemText (.value v) (stringify v) := by
  induction h with
  | null => rw [stringify]; exact .null
  | bool b => cases b <;> rw [stringify]; exacts [.false, .true]
  | num h => rw [stringify]; exact .num h
  | str s => rw [stringify]; exact .str (quote_text s)
  | @arr vs _ ih =>
    rw [stringify]
    rcases vs with _ | ⟨v, vs⟩
    · rw [stringifyAll]; exact .emptyArr white_nil
    · have := ItemText.arr white_nil (all_text v vs ih)
      rwa [List.cons_append, List.nil_append] at this
  | @obj fs _ ih =>
    rw [stringify]
    rcases fs with _ | ⟨f, fs⟩
    · rw [stringifyFields]; exact .emptyObj white_nil
    · have := ItemText.obj white_nil (fields_text f fs ih)
      rwa [List.cons_append, List.nil_append] at this

theorem stringify_text {v : Json} (h : Proper v) : JsonText v (stringify v) :=
  ⟨[], _, [], white_nil, stringify_item h, white_nil, by simp⟩

/-! Numbers. -/

theorem decDigit_iff {c : Char} : c ∈ "0123456789".toList ↔ decDigit c = some (c.toNat - 48) ∧ c.toNat - 48 < 10 := by
  constructor
  · intro h
    have : ∀ c ∈ "0123456789".toList, decDigit c = some (c.toNat - 48) ∧ c.toNat - 48 < 10 := by decide
    exact this c h
  · rintro ⟨h, -⟩
    unfold decDigit at h
    split at h
    · next hc =>
      have h1 : (48 : Nat) ≤ c.toNat := hc.1
      have h2 : c.toNat ≤ 57 := hc.2
      have : ∀ n, 48 ≤ n → n ≤ 57 → Char.ofNat n ∈ "0123456789".toList := by
        intro n a b
        have : n = 48 ∨ n = 49 ∨ n = 50 ∨ n = 51 ∨ n = 52 ∨ n = 53 ∨ n = 54 ∨ n = 55 ∨ n = 56 ∨ n = 57 := by omega
        rcases this with rfl | rfl | rfl | rfl | rfl | rfl | rfl | rfl | rfl | rfl <;> decide
      have := this _ h1 h2
      rwa [Char.ofNat_toNat] at this
    · cases h

theorem decDigit_some {c : Char} {d : Nat} (h : decDigit c = some d) : d = c.toNat - 48 ∧ c ∈ "0123456789".toList := by
  unfold decDigit at h
  split at h
  · next hc =>
    cases h
    refine ⟨rfl, decDigit_iff.mpr ⟨by unfold decDigit; rw [if_pos hc], ?_⟩⟩
    have h2 : c.toNat ≤ 57 := hc.2
    omega
  · cases h

theorem mapM_digits : ∀ (t : Str) (ds : List Nat), t.mapM decDigit = some ds ↔ (∀ c ∈ t, c ∈ "0123456789".toList) ∧ ds = t.map (fun c => c.toNat - 48)
  | [], ds => by simp [eq_comm]
  | c :: t, ds => by
    rw [List.mapM_cons]
    constructor
    · intro h
      cases hc : decDigit c with
      | none => rw [hc] at h; cases h
      | some d =>
        rw [hc] at h
        cases ht : t.mapM decDigit with
        | none => rw [ht] at h; cases h
        | some ds' =>
          rw [ht] at h
          cases h
          obtain ⟨e, m⟩ := decDigit_some hc
          obtain ⟨m', e'⟩ := (mapM_digits t ds').mp ht
          exact ⟨List.forall_mem_cons.mpr ⟨m, m'⟩, by rw [e, e', List.map_cons]⟩
    · rintro ⟨h, rfl⟩
      obtain ⟨h1, h2⟩ := List.forall_mem_cons.mp h
      rw [(decDigit_iff.mp h1).1, (mapM_digits t _).mpr ⟨h2, rfl⟩]
      rfl

theorem decimal_eq (t : Str) : decimal t = Base58.ofDigits 10 (t.map fun c => c.toNat - 48) := by
  unfold decimal Base58.ofDigits
  rw [List.foldl_map]
  congr 1
  funext n c
  rw [Nat.mul_comm]

theorem readNat_iff {b : Nat} {v : Json} {n : Nat} : readNat b v = some n ↔ NatValue v n ∧ n < b := by
  unfold readNat NatValue
  split
  · next t =>
    constructor
    · intro h
      cases hm : t.mapM decDigit with
      | none => rw [hm] at h; cases h
      | some ds =>
        rw [hm, Option.bind_some] at h
        split at h
        · next hb =>
          cases h
          obtain ⟨h1, rfl⟩ := (mapM_digits _ _).mp hm
          exact ⟨⟨t, rfl, h1, decimal_eq t⟩, hb⟩
        · cases h
    · rintro ⟨⟨t', e, h1, h2⟩, hb⟩
      cases e
      rw [(mapM_digits _ _).mpr ⟨h1, rfl⟩, Option.bind_some, ← decimal_eq, h2, if_pos hb]
  · next hn =>
    constructor
    · intro h; cases h
    · rintro ⟨⟨t', e, -⟩, -⟩
      exact absurd e (hn t')

/-! Records. -/

theorem field_iff {fs : List (Str × Json)} {k : Str} {v : Json} : field fs k = some v ↔ HasField fs k v := by
  unfold field
  constructor
  · intro h
    split at h
    · next f hf =>
      cases h
      have hm : f ∈ fs.filter (fun f => f.1 = k) := by rw [hf]; simp
      obtain ⟨hm, hk⟩ := List.mem_filter.mp hm
      have hk : f.1 = k := by simpa using hk
      obtain ⟨a, b, rfl⟩ := List.append_of_mem hm
      refine ⟨a, b, by rw [← hk], ?_⟩
      rw [List.filter_append, List.filter_cons_of_pos (by simpa using hk)] at hf
      have hl := congrArg List.length hf
      rw [List.length_append, List.length_cons, List.length_singleton] at hl
      intro g hg e
      rcases List.mem_append.mp hg with hg | hg
      · have : g ∈ a.filter (fun f => f.1 = k) := List.mem_filter.mpr ⟨hg, by simpa using e⟩
        have := List.length_pos_of_mem this
        omega
      · have : g ∈ b.filter (fun f => f.1 = k) := List.mem_filter.mpr ⟨hg, by simpa using e⟩
        have := List.length_pos_of_mem this
        omega
    · cases h
  · rintro ⟨a, b, rfl, h⟩
    have ha : a.filter (fun f => f.1 = k) = [] := List.filter_eq_nil_iff.mpr fun f hf => by simpa using h f (List.mem_append_left _ hf)
    have hb : b.filter (fun f => f.1 = k) = [] := List.filter_eq_nil_iff.mpr fun f hf => by simpa using h f (List.mem_append_right _ hf)
    rw [List.filter_append, List.filter_cons_of_pos (by simp), ha, hb]
    rfl

theorem mapM_iff {α β : Type} {f : α → Option β} {P : α → β → Prop} (hf : ∀ a b, f a = some b ↔ P a b) :
    ∀ (xs : List α) (ys : List β), xs.mapM f = some ys ↔ List.Forall₂ P xs ys
  | [], ys => by
    rw [List.mapM_nil]
    constructor
    · intro h; cases h; exact .nil
    · intro h; cases h; rfl
  | x :: xs, ys => by
    rw [List.mapM_cons]
    constructor
    · intro h
      cases hx : f x with
      | none => rw [hx] at h; cases h
      | some y =>
        rw [hx] at h
        cases hxs : xs.mapM f with
        | none => rw [hxs] at h; cases h
        | some ys' =>
          rw [hxs] at h
          cases h
          exact .cons ((hf _ _).mp hx) ((mapM_iff hf _ _).mp hxs)
    · intro h
      cases h with
      | cons h1 h2 =>
        rw [(hf _ _).mpr h1, (mapM_iff hf _ _).mpr h2]
        rfl

theorem fields_iff {names : List Str} {v : Json} {vs : List Json} : fields names v = some vs ↔ RecordValue names v vs := by
  unfold fields RecordValue
  split
  · next fs =>
    rw [mapM_iff (fun _ _ => field_iff)]
    constructor
    · intro h; exact Or.inl ⟨fs, rfl, h⟩
    · rintro (⟨fs', e, h⟩ | ⟨e, -⟩)
      · cases e; exact h
      · cases e
  · next ws =>
    constructor
    · intro h
      split at h
      · next hl => cases h; exact Or.inr ⟨rfl, hl⟩
      · cases h
    · rintro (⟨fs', e, -⟩ | ⟨e, h⟩)
      · cases e
      · cases e; rw [if_pos h]
  · next h1 h2 =>
    constructor
    · intro h; cases h
    · rintro (⟨fs', e, -⟩ | ⟨e, -⟩)
      · exact absurd e (h1 _)
      · exact absurd e (h2 _)

theorem readString_iff {v : Json} {s : Str} : readString v = some s ↔ v = .str s := by
  unfold readString
  split
  · next t => constructor <;> intro h <;> cases h <;> rfl
  · next h1 =>
    constructor
    · intro h; cases h
    · intro h; exact absurd h (h1 _)

theorem readVec_iff {α : Type} {f : Json → Option α} {P : Json → α → Prop} (hf : ∀ a b, f a = some b ↔ P a b) {v : Json} {xs : List α} :
    readVec f v = some xs ↔ ArrayValue P v xs := by
  unfold readVec ArrayValue
  split
  · next vs =>
    rw [mapM_iff hf]
    constructor
    · intro h; exact ⟨vs, rfl, h⟩
    · rintro ⟨vs', e, h⟩; cases e; exact h
  · next h1 =>
    constructor
    · intro h; cases h
    · rintro ⟨vs', e, -⟩; exact absurd e (h1 _)

theorem readTrust_iff {v : Json} {t : TrustDto} : readTrust v = some t ↔ TrustValue v t := by
  unfold readTrust TrustValue
  constructor
  · intro h
    split at h
    · next a b c d e heq =>
      simp only [Option.bind_eq_bind, Option.bind_eq_some_iff, readString_iff, readNat_iff, Option.some.injEq] at h
      obtain ⟨a', rfl, b', ⟨hb, hb'⟩, c', rfl, d', rfl, e', ⟨he, he'⟩, rfl⟩ := h
      refine ⟨b, e, fields_iff.mp heq, ?_, ?_⟩
      · dsimp only; rwa [UInt64.toNat_ofNat_of_lt' hb']
      · dsimp only; rwa [UInt64.toNat_ofNat_of_lt' he']
    · cases h
  · rintro ⟨b, e, h, hb, he⟩
    unfold trustFields
    rw [fields_iff.mpr h]
    simp only [readString, readNat_iff.mpr ⟨hb, t.expiresAt.toNat_lt⟩, readNat_iff.mpr ⟨he, t.issuedAt.toNat_lt⟩, Option.bind_eq_bind, Option.bind_some,
      UInt64.ofNat_toNat]

theorem readCert_iff {v : Json} {c : CertDto} : readCert v = some c ↔ CertValue v c := by
  unfold readCert CertValue
  constructor
  · intro h
    split at h
    · next a heq =>
      obtain ⟨ts, hts, rfl⟩ := Option.map_eq_some_iff.mp h
      exact ⟨a, fields_iff.mp heq, (readVec_iff fun _ _ => readTrust_iff).mp hts⟩
    · cases h
  · rintro ⟨a, h, ha⟩
    rw [fields_iff.mpr h]
    dsimp only
    rw [(readVec_iff fun _ _ => readTrust_iff).mpr ha]
    rfl

theorem readCerts_iff {v : Json} {c : Certs} : readCerts v = some c ↔ CertsValue v c := by
  unfold readCerts CertsValue
  constructor
  · intro h
    split at h
    · next a b e heq =>
      simp only [Option.bind_eq_bind, Option.bind_eq_some_iff, readString_iff, readNat_iff, readVec_iff (fun _ _ => readCert_iff), Option.some.injEq] at h
      obtain ⟨a', rfl, b', ⟨hb, hb'⟩, e', he, rfl⟩ := h
      refine ⟨b, e, fields_iff.mp heq, ?_, he⟩
      dsimp only; rwa [UInt32.toNat_ofNat_of_lt' hb']
    · cases h
  · rintro ⟨b, e, h, hb, he⟩
    rw [fields_iff.mpr h]
    simp only [readString, readNat_iff.mpr ⟨hb, c.maxChainLength.toNat_lt⟩, (readVec_iff fun _ _ => readCert_iff).mpr he, Option.bind_eq_bind, Option.bind_some,
      UInt32.ofNat_toNat]

/-! What is written. -/

theorem show_digits (x : UInt64) : (∀ c ∈ showU64 x, c ∈ "0123456789".toList) ∧ decimal (showU64 x) = x.toNat := by
  obtain ⟨ds, h1, h2, h3⟩ := DebugTime.showU64_digits x
  rw [h2]
  refine ⟨?_, by rw [DebugTime.decimal_chars _ h1, h3]⟩
  intro c hc
  obtain ⟨d, hd, rfl⟩ := List.mem_map.mp hc
  have : ∀ d, d < 10 → Char.ofNat (48 + d) ∈ "0123456789".toList := by decide
  exact this d (h1 d hd)

theorem show_nat (x : UInt64) : NatValue (.num (showU64 x)) x.toNat := ⟨_, rfl, (show_digits x).1, (show_digits x).2⟩

theorem show_number (x : UInt64) : NumberText (showU64 x) := by
  refine ⟨[], showU64 x, [], [], by simp, Or.inl rfl, ?_, Or.inl rfl, Or.inl rfl⟩
  by_cases h : x.toNat = 0
  · left; unfold showU64; rw [if_pos h]
  · right
    refine ⟨⟨showU64_ne_nil x, (show_digits x).1⟩, ?_⟩
    unfold showU64
    rw [if_neg h]
    intro e
    rcases hd : Base58.digits 10 x.toNat with _ | ⟨d, ds⟩
    · rw [hd] at e; cases e
    · rw [hd] at e
      have h1 := Base58.digits_head (b := 10) (by omega) x.toNat d (by rw [hd]; rfl)
      have h2 := Base58.digits_lt (b := 10) (by omega) x.toNat d (by rw [hd]; simp)
      have : ∀ d, d < 10 → d ≠ 0 → Char.ofNat (48 + d) ≠ '0' := by decide
      exact this d h2 h1 (Option.some.inj e)

theorem toU64 (x : UInt32) : NatValue (.num (showU64 x.toUInt64)) x.toNat := by
  have := show_nat x.toUInt64
  rwa [UInt32.toNat_toUInt64] at this

theorem forall₂_map {α : Type} {P : Json → α → Prop} {f : α → Json} (h : ∀ a, P (f a) a) : ∀ xs : List α, List.Forall₂ P (xs.map f) xs
  | [] => .nil
  | x :: xs => .cons (h x) (forall₂_map h xs)

theorem writeTrust_is (t : TrustDto) : TrustValue (writeTrust t) t := ⟨_, _, fields_iff.mp rfl, show_nat _, show_nat _⟩
theorem writeCert_is (c : CertDto) : CertValue (writeCert c) c := ⟨_, fields_iff.mp rfl, _, rfl, forall₂_map writeTrust_is _⟩
theorem writeCerts_is (c : Certs) : CertsValue (writeCerts c) c := ⟨_, _, fields_iff.mp rfl, toU64 _, _, rfl, forall₂_map writeCert_is _⟩
theorem trustJson_is (t : TrustDto) : TrustValue (Admin.trustJson t) t := ⟨_, _, fields_iff.mp rfl, show_nat _, show_nat _⟩
theorem certJson_is (c : CertDto) : CertValue (Admin.certJson c) c := ⟨_, fields_iff.mp rfl, _, rfl, forall₂_map trustJson_is _⟩

theorem proper_map {α : Type} {f : α → Json} (h : ∀ a, Proper (f a)) (xs : List α) : Proper (.arr (xs.map f)) :=
  .arr fun v hv => by obtain ⟨a, -, rfl⟩ := List.mem_map.mp hv; exact h a

theorem writeTrust_proper (t : TrustDto) : Proper (writeTrust t) := .obj (by
  simp only [List.mem_cons, List.not_mem_nil, or_false, forall_eq_or_imp, forall_eq]
  exact ⟨.str _, .num (show_number _), .str _, .str _, .num (show_number _)⟩)
theorem trustJson_proper (t : TrustDto) : Proper (Admin.trustJson t) := .obj (by
  simp only [List.mem_cons, List.not_mem_nil, or_false, forall_eq_or_imp, forall_eq]
  exact ⟨.str _, .num (show_number _), .num (show_number _), .str _, .str _⟩)
theorem writeCert_proper (c : CertDto) : Proper (writeCert c) := .obj (by
  simp only [List.mem_cons, List.not_mem_nil, or_false, forall_eq]
  exact proper_map writeTrust_proper _)
theorem certJson_proper (c : CertDto) : Proper (Admin.certJson c) := .obj (by
  simp only [List.mem_cons, List.not_mem_nil, or_false, forall_eq]
  exact proper_map trustJson_proper _)
theorem writeCerts_proper (c : Certs) : Proper (writeCerts c) := .obj (by
  simp only [List.mem_cons, List.not_mem_nil, or_false, forall_eq_or_imp, forall_eq]
  exact ⟨.str _, .num (show_number _), proper_map writeCert_proper _⟩)

theorem fromStr_iff {s : Str} {c : Certs} : fromStr s = some c ↔ ∃ v, JsonText v s ∧ CertsValue v c := by
  unfold fromStr
  rw [Option.bind_eq_some_iff]
  simp only [parse_iff, readCerts_iff]

theorem readFile_iff {s : Str} {cs : List CertDto} :
    Admin.readFile s = some cs ↔ ∃ v a, JsonText v s ∧ RecordValue ["certs".toList] v [a] ∧ ArrayValue CertValue a cs := by
  unfold Admin.readFile
  rw [Option.bind_eq_some_iff]
  constructor
  · rintro ⟨v, hv, h⟩
    split at h
    · next a heq => exact ⟨v, a, parse_iff.mp hv, fields_iff.mp heq, (readVec_iff fun _ _ => readCert_iff).mp h⟩
    · cases h
  · rintro ⟨v, a, hv, h, ha⟩
    refine ⟨v, parse_iff.mpr hv, ?_⟩
    rw [fields_iff.mpr h]
    exact (readVec_iff fun _ _ => readCert_iff).mpr ha

/-! The shipped files. -/

theorem tl (l : List Char) : (String.ofList l).toList = l := String.toList_ofList

/-- A character that is written as it is. -/
def plain (c : Char) : Bool := decide (32 ≤ c.toNat) && c.toNat != 34 && c.toNat != 92

theorem quote_plain {s : Str} (h : s.all plain = true) : s.flatMap quoteChar = s := by
  induction s with
  | nil => rfl
  | cons c s ih =>
    rw [List.all_cons, Bool.and_eq_true] at h
    rw [List.flatMap_cons, ih h.2]
    have h1 := h.1
    unfold plain at h1
    simp only [Bool.and_eq_true, decide_eq_true_eq, bne_iff_ne] at h1
    have e : quoteChar c = [c] := by
      unfold quoteChar
      have n : ∀ d : Char, c.toNat ≠ d.toNat → c ≠ d := fun d hd e => hd (by rw [e])
      rw [if_neg (n '"' h1.1.2), if_neg (n '\\' h1.2), if_neg (by omega), if_neg (by omega), if_neg (n '\n' (show c.toNat ≠ 10 by omega)),
        if_neg (n '\r' (show c.toNat ≠ 13 by omega)), if_neg (n '\t' (show c.toNat ≠ 9 by omega)), if_neg (by omega)]
    rw [e]
    rfl

theorem dates_text : showU64 1737828468 = ['1', '7', '3', '7', '8', '2', '8', '4', '6', '8'] ∧ showU64 1674756468 = ['1', '6', '7', '4', '7', '5', '6',
        '4', '6', '8'] := by decide +kernel

theorem trust_text (k g : String) (hk : k.toList.all plain = true) (hg : g.toList.all plain = true) :
    stringify (Admin.trustJson (Shipped.trust k g)) =
      "{\"sig_type\":\"ed25519\",\"expires_at\":1737828468,\"issued_at\":1674756468,\"issued_for\":\"".toList ++
      (k.toList ++ ("\",\"signature\":\"".toList ++ (g.toList ++ "\"}".toList))) := by
  unfold Admin.trustJson Shipped.trust
  simp only [stringify, stringifyFields, quote, dates_text]
  rw [quote_plain hk, quote_plain hg]
  rw [tl, tl, tl, tl, tl, tl, tl, tl, tl]
  repeat' rw [quote_plain]
  · simp only [List.append_assoc, List.cons_append, List.nil_append]
  all_goals decide +kernel

local macro "text" : tactic => `(tactic| (
  rw [trust_text]
  · rw [tl, tl, tl, tl, tl, tl]
    simp only [List.cons_append, List.nil_append]
  all_goals (rw [tl]; decide +kernel)))

/-- `s` is how the tool writes `t`. -/
def Writes (s : String) (t : TrustDto) : Prop := s.toList = stringify (Admin.trustJson t)

set_option maxRecDepth 100000 in
theorem root_text : Writes Text.rootTrust Shipped.rootTrust := by
  unfold Writes Text.rootTrust Shipped.rootTrust
  text

set_option maxRecDepth 100000 in
theorem example_text : Writes Text.exampleTrust Shipped.exampleTrust := by
  unfold Writes Text.exampleTrust Shipped.exampleTrust
  text

set_option maxRecDepth 100000 in
theorem label_text : Writes Text.labelTrust Shipped.labelTrust := by
  unfold Writes Text.labelTrust Shipped.labelTrust
  text

open Text in
set_option maxRecDepth 100000 in
theorem node_texts : List.Forall₂ Writes [node1, node2, node3, node4, node5, node6, node7, node8, node9, node10, node11] Shipped.nodeTrusts := by
  unfold Shipped.nodeTrusts
  refine .cons ?_ (.cons ?_ (.cons ?_ (.cons ?_ (.cons ?_ (.cons ?_ (.cons ?_ (.cons ?_ (.cons ?_ (.cons ?_ (.cons ?_ .nil))))))))))
  · unfold Writes node1; text
  · unfold Writes node2; text
  · unfold Writes node3; text
  · unfold Writes node4; text
  · unfold Writes node5; text
  · unfold Writes node6; text
  · unfold Writes node7; text
  · unfold Writes node8; text
  · unfold Writes node9; text
  · unfold Writes node10; text
  · unfold Writes node11; text

theorem cert_text (ts : List Json) : stringify (.obj [("chain".toList, .arr ts)]) = ['{', '"', 'c', 'h', 'a', 'i', 'n', '"', ':', '['] ++ stringifyAll ts ++ [']', '}'] := by
  rw [stringify, stringifyFields, stringify, tl]
  rw [show quote ['c', 'h', 'a', 'i', 'n'] = ['"', 'c', 'h', 'a', 'i', 'n', '"'] by decide +kernel]
  simp only [List.append_assoc, List.cons_append, List.nil_append]

/-- The certificates of the nodes, after a first value. -/
def certTexts (r l : Str) (ss : List Str) : Str :=
  ss.flatMap fun s => [',', '{', '"', 'c', 'h', 'a', 'i', 'n', '"', ':', '['] ++ (r ++ ([','] ++ (l ++ ([','] ++ (s ++ [']', '}'])))))

theorem nodes_text {rt lt : TrustDto} {r l : Str} (hr : r = stringify (Admin.trustJson rt)) (hl : l = stringify (Admin.trustJson lt)) {ss : List Str}
    {ts : List TrustDto} (h : List.Forall₂ (fun s t => s = stringify (Admin.trustJson t)) ss ts) (v : Json) :
    stringifyAll (v :: (ts.map fun t => CertDto.mk [rt, lt, t]).map Admin.certJson) = stringify v ++ certTexts r l ss := by
  induction h generalizing v with
  | nil => rw [List.map_nil, List.map_nil, stringifyAll, certTexts, List.flatMap_nil, List.append_nil]
  | @cons s t ss ts hs _ ih =>
    rw [List.map_cons, List.map_cons, stringifyAll, ih, certTexts, certTexts, List.flatMap_cons, Admin.certJson, cert_text]
    simp only [List.map_cons, List.map_nil, stringifyAll]
    rw [← hr, ← hl, ← hs]
    simp only [List.append_assoc, List.cons_append, List.nil_append]

theorem all_certs {rt et lt : TrustDto} {r e l : Str} (hr : r = stringify (Admin.trustJson rt)) (he : e = stringify (Admin.trustJson et))
    (hl : l = stringify (Admin.trustJson lt)) {ss : List Str} {ts : List TrustDto} (h : List.Forall₂ (fun s t => s = stringify (Admin.trustJson t)) ss ts) :
    stringifyAll ((⟨[rt, et]⟩ :: ts.map fun t => CertDto.mk [rt, lt, t]).map Admin.certJson) =
      ['{', '"', 'c', 'h', 'a', 'i', 'n', '"', ':', '['] ++ (r ++ ([','] ++ (e ++ ([']', '}'] ++ certTexts r l ss)))) := by
  rw [List.map_cons, nodes_text hr hl h, Admin.certJson, cert_text]
  simp only [List.map_cons, List.map_nil, stringifyAll]
  rw [← hr, ← he]
  simp only [List.append_assoc, List.cons_append, List.nil_append]

theorem forall₂_toList {ss : List String} {ts : List TrustDto} (h : List.Forall₂ Writes ss ts) :
    List.Forall₂ (fun s t => s = stringify (Admin.trustJson t)) (ss.map String.toList) ts := by
  induction h with
  | nil => exact .nil
  | cons h _ ih => exact .cons h ih

open Text in
theorem certs_text : stringifyAll (Shipped.certs.map Admin.certJson) =
    ['{', '"', 'c', 'h', 'a', 'i', 'n', '"', ':', '['] ++ (rootTrust.toList ++ ([','] ++ (exampleTrust.toList ++ ([']', '}'] ++
      certTexts rootTrust.toList labelTrust.toList
        ([node1, node2, node3, node4, node5, node6, node7, node8, node9, node10, node11].map String.toList))))) :=
  all_certs root_text example_text label_text (forall₂_toList node_texts)

set_option maxRecDepth 100000 in
theorem onStart_pieces (r e l n1 n2 n3 n4 n5 n6 n7 n8 n9 n10 n11 : Str) :
    ([
      "{\"certs\":[{\"chain\":[".toList, r, ",".toList, e, "]},{\"chain\":[".toList, r, ",".toList, l, ",".toList, n1, "]},{\"chain\":[".toList, r,
      ",".toList, l, ",".toList, n2, "]},{\"chain\":[".toList, r, ",".toList, l, ",".toList, n3, "]},{\"chain\":[".toList, r, ",".toList, l,
      ",".toList, n4, "]},{\"chain\":[".toList, r, ",".toList, l, ",".toList, n5, "]},{\"chain\":[".toList, r, ",".toList, l, ",".toList, n6,
      "]},{\"chain\":[".toList, r, ",".toList, l, ",".toList, n7, "]},{\"chain\":[".toList, r, ",".toList, l, ",".toList, n8, "]},{\"chain\":[".toList,
      r, ",".toList, l, ",".toList, n9, "]},{\"chain\":[".toList, r, ",".toList, l, ",".toList, n10, "]},{\"chain\":[".toList, r, ",".toList, l,
      ",".toList, n11, "]}]}".toList] : List Str).flatten =
      '{' :: (quote "certs".toList ++ ':' :: ('[' :: (['{', '"', 'c', 'h', 'a', 'i', 'n', '"', ':', '['] ++ (r ++ ([','] ++ (e ++ ([']', '}'] ++ certTexts r l
        [n1, n2, n3, n4, n5, n6, n7, n8, n9, n10, n11]))))) ++ [']'])) ++ ['}'] := by
  rw [tl, tl, tl, tl, tl]
  rw [show quote ['c', 'e', 'r', 't', 's'] = ['"', 'c', 'e', 'r', 't', 's', '"'] by decide +kernel]
  simp only [certTexts, List.flatMap_cons, List.flatMap_nil, List.flatten_cons, List.flatten_nil, List.append_assoc, List.cons_append, List.nil_append, List.append_nil]

theorem onStart_text : Distro.onStart.flatMap String.toList = Admin.file Shipped.certs := by
  unfold Admin.file
  rw [stringify, stringifyFields, stringify, certs_text]
  unfold Distro.onStart
  rw [List.flatMap_def]
  simp only [List.map_cons, List.map_nil]
  exact onStart_pieces ..

/-- The value that init_certs.json writes. -/
def initValue (r : Str) (cs : List CertDto) : Json :=
  .obj [("root_node".toList, .str r), ("max_chain_length".toList, .num ['5']), ("certs".toList, .arr (cs.map Admin.certJson))]

set_option maxRecDepth 100000 in
theorem initCerts_pieces (r e l n1 n2 n3 n4 n5 n6 n7 n8 n9 n10 n11 : Str) :
    ([
      "{\"root_node\":\"12D3KooWNbZKaPWRZ8wgjGvrxdJFz9Fq5uVwkR6ERV1f74HhPdyB\",\"max_chain_length\":5,\"certs\":[{\"chain\":[".toList, r, ",".toList,
      e, "]},{\"chain\":[".toList, r, ",".toList, l, ",".toList, n1, "]},{\"chain\":[".toList, r, ",".toList, l, ",".toList, n2,
      "]},{\"chain\":[".toList, r, ",".toList, l, ",".toList, n3, "]},{\"chain\":[".toList, r, ",".toList, l, ",".toList, n4, "]},{\"chain\":[".toList,
      r, ",".toList, l, ",".toList, n5, "]},{\"chain\":[".toList, r, ",".toList, l, ",".toList, n6, "]},{\"chain\":[".toList, r, ",".toList, l,
      ",".toList, n7, "]},{\"chain\":[".toList, r, ",".toList, l, ",".toList, n8, "]},{\"chain\":[".toList, r, ",".toList, l, ",".toList, n9,
      "]},{\"chain\":[".toList, r, ",".toList, l, ",".toList, n10, "]},{\"chain\":[".toList, r, ",".toList, l, ",".toList, n11, "]}]}\n".toList] : List Str).flatten =
      [] ++ ('{' :: (quote "root_node".toList ++ ':' :: quote "12D3KooWNbZKaPWRZ8wgjGvrxdJFz9Fq5uVwkR6ERV1f74HhPdyB".toList ++
        ',' :: (quote "max_chain_length".toList ++ ':' :: ['5'] ++ ',' :: (quote "certs".toList ++ ':' :: ('[' :: (['{', '"', 'c', 'h', 'a', 'i', 'n', '"', ':', '['] ++ (r ++ ([','] ++ (e ++ ([']', '}'] ++ certTexts r l
        [n1, n2, n3, n4, n5, n6, n7, n8, n9, n10, n11]))))) ++ [']'])))) ++ ['}']) ++ ['\n'] := by
  rw [tl, tl, tl, tl, tl, tl, tl, tl]
  simp only [quote]
  rw [quote_plain, quote_plain, quote_plain, quote_plain]
  · simp only [certTexts, List.flatMap_cons, List.flatMap_nil, List.flatten_cons, List.flatten_nil, List.append_assoc, List.cons_append, List.nil_append, List.append_nil]
  all_goals decide +kernel

theorem initCerts_text : Distro.initCerts.flatMap String.toList = [] ++ stringify (initValue Aqua.fluenceRootPeerId Shipped.certs) ++ ['\n'] := by
  unfold initValue
  simp only [stringify, stringifyFields]
  rw [certs_text]
  unfold Distro.initCerts Aqua.fluenceRootPeerId
  rw [List.flatMap_def]
  simp only [List.map_cons, List.map_nil]
  exact initCerts_pieces ..

theorem init_is (r : Str) (cs : List CertDto) : CertsValue (initValue r cs) ⟨r, 5, cs⟩ :=
  ⟨_, _, fields_iff.mp rfl, ⟨['5'], rfl, by decide, rfl⟩, _, rfl, forall₂_map certJson_is _⟩

theorem init_proper (r : Str) (cs : List CertDto) : Proper (initValue r cs) := .obj (by
  simp only [List.mem_cons, List.not_mem_nil, or_false, forall_eq_or_imp, forall_eq]
  exact ⟨.str _, .num (show_number 5), proper_map certJson_proper _⟩)

theorem init_read {s r : Str} {cs : List CertDto} (h : s = [] ++ stringify (initValue r cs) ++ ['\n']) :
    Distro.fromStr s = some ⟨r, OnStart.maxChainLen, cs⟩ :=
  fromStr_iff.mpr ⟨_, ⟨[], _, ['\n'], white_nil, stringify_item (init_proper r cs), fun _ hc => Or.inr (Or.inl (List.mem_singleton.mp hc)), h⟩, init_is r cs⟩

theorem krasCerts_ok {s : Str} {c : Certs} (h : fromStr s = some c) : krasCerts s = .ok c := by
  unfold krasCerts; rw [h]

end DistroProof

open DistroProof Spec

/-- **C132**, texts: a text is read as JSON exactly if the grammar of RFC 8259 allows it, and as the value that it writes there (so the grammar is unambiguous). -/
theorem C132_json {s : Str} {v : Json} : Json.parse s = some v ↔ JsonText v s := JsonProof.parse_iff

/-- **C132**, reading: `from_str` accepts exactly the JSON texts of records with the right fields, each once (in any order, perhaps among others), with strings
where strings and with unsigned numbers of the right size where numbers belong; and it gives just what is written there. -/
theorem C132_read {s : Str} {c : Distro.Certs} : Distro.fromStr s = some c ↔ ∃ v, JsonText v s ∧ CertsValue v c := fromStr_iff

/-- **C132**, writing: whatever the strings contain, what `to_string` writes is a JSON text, and `from_str` gets the same certificates back from it. -/
theorem C132_round_trip (c : Distro.Certs) : (∃ v, JsonText v (Distro.toStr c) ∧ CertsValue v c) ∧ Distro.fromStr (Distro.toStr c) = some c :=
  have h : ∃ v, JsonText v (Distro.toStr c) ∧ CertsValue v c := ⟨_, stringify_text (writeCerts_proper c), writeCerts_is c⟩
  ⟨h, fromStr_iff.mpr h⟩

/-- **C132**, the tool: what `JSON.stringify` writes for a list of certificates is read back as this list, in whatever order the node had returned the fields
(`vs` are the certificates as the tool got them), and with nothing lost or changed. -/
theorem C132_admin_file {certs : List CertDto} {vs : List Json} (hv : List.Forall₂ (fun v c => Proper v ∧ CertValue v c) vs certs) :
    Admin.readFile (Json.stringify (.obj [("certs".toList, .arr vs)])) = some certs := by
  refine readFile_iff.mpr ⟨_, _, stringify_text (.obj ?_), fields_iff.mp rfl, _, rfl, ?_⟩
  · simp only [List.mem_cons, List.not_mem_nil, or_false, forall_eq]
    refine .arr ?_
    induction hv with
    | nil => intro v h; cases h
    | cons h _ ih => exact List.forall_mem_cons.mpr ⟨h.1, ih⟩
  · induction hv with
    | nil => exact .nil
    | cons h _ ih => exact .cons h.2 ih

/-- ... in particular with the fields in the order that on_start.json has. -/
theorem C132_admin_file_order (certs : List CertDto) : Admin.readFile (Admin.file certs) = some certs :=
  C132_admin_file (by
    induction certs with
    | nil => exact .nil
    | cons c cs ih => exact .cons ⟨certJson_proper c, certJson_is c⟩ ih)

/-- **C132**, the shipped files: on_start.json is what the tool writes for the certificates of C123, and the node reads them from it. -/
theorem C132_on_start : Distro.onStart.flatMap String.toList = Admin.file Shipped.certs ∧
    Admin.readFile (Distro.onStart.flatMap String.toList) = some Shipped.certs :=
  ⟨onStart_text, by rw [onStart_text]; exact C132_admin_file_order _⟩

/-- **C132**, the static: the first use of `KRAS_CERTS` does not panic; it gives the same certificates as on_start.json, the root that on_start.air sets and the same
maximum length of chains. -/
theorem C132_distro : Distro.krasCerts (Distro.initCerts.flatMap String.toList) = .ok ⟨Aqua.fluenceRootPeerId, OnStart.maxChainLen, Shipped.certs⟩ :=
  krasCerts_ok (init_read initCerts_text)

/-- With the feature `cargo-clippy` the text is `{}` instead, and the first use panics. -/
example : Distro.krasCerts "{}".toList = .panic := by
  rw [tl]
  have h : Distro.fromStr ['{', '}'] = none := by decide +kernel
  unfold Distro.krasCerts; rw [h]

/-- The fields may come in another order, with others among them and with white space and escapes; or without names. -/
example : Distro.fromStr "{ \"certs\": [[ [] ]],\n \"more\" : [true, -1.5e3], \"max_chain_length\": 7, \"\\u0072oot_node\": \"12\" }".toList =
    some ⟨"12".toList, 7, [⟨[]⟩]⟩ := by rw [tl]; decide +kernel

/-- A missing field, a field twice, a sign, a fraction, a number that is too large, a comma too much and something after the end are refused. -/
example : Distro.fromStr "{\"root_node\":\"\",\"certs\":[]}".toList = none := by rw [tl]; decide +kernel
example : Distro.fromStr "{\"root_node\":\"\",\"max_chain_length\":1,\"max_chain_length\":1,\"certs\":[]}".toList = none := by rw [tl]; decide +kernel
example : Distro.fromStr "{\"root_node\":\"\",\"max_chain_length\":-1,\"certs\":[]}".toList = none := by rw [tl]; decide +kernel
example : Distro.fromStr "{\"root_node\":\"\",\"max_chain_length\":1.0,\"certs\":[]}".toList = none := by rw [tl]; decide +kernel
example : Distro.fromStr "{\"root_node\":\"\",\"max_chain_length\":4294967296,\"certs\":[]}".toList = none := by rw [tl]; decide +kernel
example : Distro.fromStr "{\"root_node\":\"\",\"max_chain_length\":1,\"certs\":[],}".toList = none := by rw [tl]; decide +kernel
example : Distro.fromStr "{\"root_node\":\"\",\"max_chain_length\":1,\"certs\":[]} x".toList = none := by rw [tl]; decide +kernel

/-- Strings that need escapes: a quote, a backslash, control characters and others. -/
example : Distro.toStr ⟨['"', '\\', '\n', Char.ofNat 1, 'é', '😀'], 4294967295, []⟩ =
    "{\"root_node\":\"\\\"\\\\\\n\\u0001é😀\",\"max_chain_length\":4294967295,\"certs\":[]}".toList := by rw [tl]; decide +kernel

end TG
