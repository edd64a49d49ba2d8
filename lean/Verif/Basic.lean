/-
Basic vocabulary of the model: outcomes of Rust calls, byte strings, machine integers, durations and
the state monad used for `&mut self` methods.  Nothing here models a particular function of /repo; it is the
part of Rust and of the standard library that the functions of /repo are written in.
-/
import Mathlib.Data.List.Basic

namespace TG

/-- A Rust `Vec<u8>` / `&[u8]`. -/
abbrev Bytes := List UInt8

/-- A Rust `String` / `&str`, as its list of Unicode scalar values. -/
abbrev Str := List Char

/-- How a Rust call ends: `Ok(a)`, `Err(e)`, a panic, or never. -/
inductive Outcome (ε α : Type) where
  | ok (a : α)
  | err (e : ε)
  | panic
  | diverge
  deriving DecidableEq, Repr

namespace Outcome
variable {ε ε' α β : Type}

/-- Sequencing with the `?` operator. -/
def bind (x : Outcome ε α) (f : α → Outcome ε β) : Outcome ε β :=
  match x with
  | ok a => f a
  | err e => err e
  | panic => panic
  | diverge => diverge

instance : Monad (Outcome ε) where
  pure := ok
  bind := bind

/-- `Result::map_err` (also the `From` conversion applied by `?`). -/
def mapErr (f : ε → ε') (x : Outcome ε α) : Outcome ε' α :=
  match x with
  | ok a => ok a
  | err e => err (f e)
  | panic => panic
  | diverge => diverge

/-- `Result::unwrap` / `Result::expect`. -/
def unwrap (x : Outcome ε α) : Outcome ε' α :=
  match x with
  | ok a => ok a
  | err _ => panic
  | panic => panic
  | diverge => diverge

/-- `Option::ok_or`. -/
def ofOption (e : ε) : Option α → Outcome ε α
  | some a => ok a
  | none => err e

/-- `Result::is_ok`. -/
def isOk : Outcome ε α → Bool
  | ok _ => true
  | _ => false

/-- `Result::ok` (a panic or divergence is not a value). -/
def toOption : Outcome ε α → Option α
  | ok a => some a
  | _ => none

@[simp] theorem pure_eq (a : α) : (pure a : Outcome ε α) = ok a := rfl
@[simp] theorem ok_bind (a : α) (f : α → Outcome ε β) : (ok a >>= f) = f a := rfl
@[simp] theorem err_bind (e : ε) (f : α → Outcome ε β) : (err e >>= f) = err e := rfl
@[simp] theorem panic_bind (f : α → Outcome ε β) : ((panic : Outcome ε α) >>= f) = panic := rfl
@[simp] theorem diverge_bind (f : α → Outcome ε β) :
    ((diverge : Outcome ε α) >>= f) = diverge := rfl
@[simp] theorem mapErr_ok (f : ε → ε') (a : α) : (ok a : Outcome ε α).mapErr f = ok a := rfl
@[simp] theorem mapErr_err (f : ε → ε') (e : ε) : (err e : Outcome ε α).mapErr f = err (f e) := rfl
@[simp] theorem mapErr_panic (f : ε → ε') : (panic : Outcome ε α).mapErr f = panic := rfl
@[simp] theorem mapErr_diverge (f : ε → ε') : (diverge : Outcome ε α).mapErr f = diverge := rfl
@[simp] theorem unwrap_ok (a : α) : (ok a : Outcome ε α).unwrap = (ok a : Outcome ε' α) := rfl
@[simp] theorem unwrap_err (e : ε) : (err e : Outcome ε α).unwrap = (panic : Outcome ε' α) := rfl
@[simp] theorem isOk_ok (a : α) : (ok a : Outcome ε α).isOk = true := rfl
@[simp] theorem isOk_err (e : ε) : (err e : Outcome ε α).isOk = false := rfl
@[simp] theorem isOk_panic : (panic : Outcome ε α).isOk = false := rfl
@[simp] theorem isOk_diverge : (diverge : Outcome ε α).isOk = false := rfl
@[simp] theorem ofOption_some (e : ε) (a : α) : ofOption e (some a) = ok a := rfl
@[simp] theorem ofOption_none (e : ε) : ofOption e (none : Option α) = err e := rfl

theorem bind_eq_ok {x : Outcome ε α} {f : α → Outcome ε β} {b : β} :
    (x >>= f) = ok b ↔ ∃ a, x = ok a ∧ f a = ok b := by
  cases x <;> simp

theorem mapErr_eq_ok {f : ε → ε'} {x : Outcome ε α} {a : α} : x.mapErr f = ok a ↔ x = ok a := by
  cases x <;> simp [mapErr]

theorem isOk_iff {x : Outcome ε α} : x.isOk = true ↔ ∃ a, x = ok a := by
  cases x <;> simp

instance : LawfulMonad (Outcome ε) where
  map_const := rfl
  id_map x := by cases x <;> rfl
  seqLeft_eq x y := by cases x <;> cases y <;> rfl
  seqRight_eq x y := by cases x <;> cases y <;> rfl
  pure_seq f x := by cases x <;> rfl
  bind_pure_comp f x := by cases x <;> rfl
  bind_map f x := by cases f <;> cases x <;> rfl
  pure_bind a f := rfl
  bind_assoc x f g := by cases x <;> rfl

end Outcome

/-- A method taking `&mut self` on a state of type `S`.  The state is kept when the method fails: Rust does not
roll back. -/
def M (S ε α : Type) := S → Outcome ε α × S

namespace M
variable {S ε ε' α β : Type}

def pure (a : α) : M S ε α := fun s => (.ok a, s)

def bind (x : M S ε α) (f : α → M S ε β) : M S ε β := fun s =>
  match x s with
  | (.ok a, s') => f a s'
  | (.err e, s') => (.err e, s')
  | (.panic, s') => (.panic, s')
  | (.diverge, s') => (.diverge, s')

instance : Monad (M S ε) where
  pure := M.pure
  bind := M.bind

/-- A call that does not touch the state. -/
def lift (x : Outcome ε α) : M S ε α := fun s => (x, s)

/-- Early return with an error. -/
def fail (e : ε) : M S ε α := fun s => (.err e, s)

/-- `map_err`. -/
def mapErr (f : ε → ε') (x : M S ε α) : M S ε' α := fun s => ((x s).1.mapErr f, (x s).2)

theorem bind_eq (x : M S ε α) (f : α → M S ε β) : (x >>= f) = M.bind x f := rfl
theorem pure_eq (a : α) : (Pure.pure a : M S ε α) = fun s => (.ok a, s) := rfl

@[simp] theorem pure_run (a : α) (s : S) : (Pure.pure a : M S ε α) s = (.ok a, s) := rfl
@[simp] theorem lift_run (x : Outcome ε α) (s : S) : (M.lift x : M S ε α) s = (x, s) := rfl
@[simp] theorem fail_run (e : ε) (s : S) : (M.fail e : M S ε α) s = (.err e, s) := rfl

theorem bind_run (x : M S ε α) (f : α → M S ε β) (s : S) :
    (x >>= f) s = match x s with
      | (.ok a, s') => f a s'
      | (.err e, s') => (.err e, s')
      | (.panic, s') => (.panic, s')
      | (.diverge, s') => (.diverge, s') := rfl

theorem bind_run_ok {x : M S ε α} {f : α → M S ε β} {s s' : S} {a : α} (h : x s = (.ok a, s')) :
    (x >>= f) s = f a s' := by rw [bind_run, h]

theorem bind_run_err {x : M S ε α} {f : α → M S ε β} {s s' : S} {e : ε} (h : x s = (.err e, s')) :
    (x >>= f) s = (.err e, s') := by rw [bind_run, h]

theorem mapErr_run (f : ε → ε') (x : M S ε α) (s : S) :
    (x.mapErr f) s = ((x s).1.mapErr f, (x s).2) := rfl

instance : LawfulMonad (M S ε) := LawfulMonad.mk'
  (id_map := by
    intro α x; funext s
    show M.bind x (fun a => M.pure (id a)) s = x s
    unfold M.bind; rcases h : x s with ⟨o, s'⟩; cases o <;> rfl)
  (pure_bind := by intros; rfl)
  (bind_assoc := by
    intro α β γ x f g; funext s
    show M.bind (M.bind x f) g s = M.bind x (fun a => M.bind (f a) g) s
    unfold M.bind; rcases h : x s with ⟨o, s'⟩; cases o <;> rfl)

end M

/-! ### Machine integers -/

/-- `x as i64` for `x : u64` (two's complement reinterpretation). -/
def asI64 (x : UInt64) : Int :=
  if x.toNat < 2 ^ 63 then (x.toNat : Int) else (x.toNat : Int) - 2 ^ 64

/-- `x as u64` for `x : i64`. -/
def asU64 (x : Int) : UInt64 := UInt64.ofNat (x % 2 ^ 64).toNat

theorem asU64_asI64 (x : UInt64) : asU64 (asI64 x) = x := by
  have hx : x.toNat < 2 ^ 64 := x.toNat_lt
  unfold asU64 asI64
  apply UInt64.toNat.inj
  split
  · rw [UInt64.toNat_ofNat']; omega
  · rw [UInt64.toNat_ofNat']; omega

theorem asI64_inj {x y : UInt64} (h : asI64 x = asI64 y) : x = y := by
  rw [← asU64_asI64 x, ← asU64_asI64 y, h]

theorem asI64_of_lt {x : UInt64} (h : x.toNat < 2 ^ 63) : asI64 x = x.toNat := by
  unfold asI64; rw [if_pos h]

theorem asI64_of_ge {x : UInt64} (h : 2 ^ 63 ≤ x.toNat) : asI64 x = (x.toNat : Int) - 2 ^ 64 := by
  unfold asI64; rw [if_neg (by omega)]

theorem asI64_le_iff {x y : UInt64} (hx : x.toNat < 2 ^ 63) (hy : y.toNat < 2 ^ 63) :
    asI64 x ≤ asI64 y ↔ x.toNat ≤ y.toNat := by
  rw [asI64_of_lt hx, asI64_of_lt hy]; omega

/-- `u64::to_le_bytes`. -/
def le8 (x : UInt64) : Bytes :=
  [UInt8.ofNat x.toNat, UInt8.ofNat (x.toNat / 2 ^ 8), UInt8.ofNat (x.toNat / 2 ^ 16),
   UInt8.ofNat (x.toNat / 2 ^ 24), UInt8.ofNat (x.toNat / 2 ^ 32), UInt8.ofNat (x.toNat / 2 ^ 40),
   UInt8.ofNat (x.toNat / 2 ^ 48), UInt8.ofNat (x.toNat / 2 ^ 56)]

/-- `u64::from_le_bytes` on a slice converted with `try_into::<[u8; 8]>()`: `none` if the length is not 8. -/
def ofLe8 : Bytes → Option UInt64
  | [a, b, c, d, e, f, g, h] =>
    some (UInt64.ofNat (a.toNat + b.toNat * 2 ^ 8 + c.toNat * 2 ^ 16 + d.toNat * 2 ^ 24
      + e.toNat * 2 ^ 32 + f.toNat * 2 ^ 40 + g.toNat * 2 ^ 48 + h.toNat * 2 ^ 56))
  | _ => none

@[simp] theorem le8_length (x : UInt64) : (le8 x).length = 8 := rfl

theorem ofLe8_le8 (x : UInt64) : ofLe8 (le8 x) = some x := by
  have hx : x.toNat < 2 ^ 64 := x.toNat_lt
  simp only [ofLe8, le8, Option.some.injEq]
  apply UInt64.toNat.inj
  simp only [UInt8.toNat_ofNat', UInt64.toNat_ofNat']
  omega

theorem le8_inj {x y : UInt64} (h : le8 x = le8 y) : x = y := by
  have := ofLe8_le8 x
  rw [h, ofLe8_le8 y] at this
  exact (Option.some.inj this).symm

theorem ofLe8_eq_some_iff {bs : Bytes} {x : UInt64} : ofLe8 bs = some x ↔ bs = le8 x := by
  constructor
  · intro h
    match bs, h with
    | [a, b, c, d, e, f, g, i], h =>
      simp only [ofLe8, Option.some.injEq] at h
      subst h
      have ha := a.toNat_lt; have hb := b.toNat_lt; have hc := c.toNat_lt; have hd := d.toNat_lt
      have he := e.toNat_lt; have hf := f.toNat_lt; have hg := g.toNat_lt; have hi := i.toNat_lt
      simp only [le8, UInt64.toNat_ofNat', List.cons.injEq, and_true]
      refine ⟨?_, ?_, ?_, ?_, ?_, ?_, ?_, ?_⟩ <;> apply UInt8.toNat.inj <;>
        simp only [UInt8.toNat_ofNat'] <;> omega
  · rintro rfl; exact ofLe8_le8 x

theorem ofLe8_isSome_iff {bs : Bytes} : (ofLe8 bs).isSome ↔ bs.length = 8 := by
  constructor
  · intro h
    obtain ⟨x, hx⟩ := Option.isSome_iff_exists.mp h
    rw [ofLe8_eq_some_iff.mp hx]; rfl
  · intro h
    match bs, h with
    | [a, b, c, d, e, f, g, i], _ => rfl

/-! ### Durations -/

/-- `std::time::Duration`: whole seconds and nanoseconds below 10^9. -/
structure Dur where
  secs : UInt64
  nanos : Fin 1000000000
  deriving DecidableEq, Repr

namespace Dur

/-- `Duration::from_secs`. -/
def ofSecs (s : UInt64) : Dur := ⟨s, 0⟩

/-- `Duration: PartialOrd` (derived, lexicographic). -/
def lt (a b : Dur) : Bool :=
  decide (a.secs.toNat < b.secs.toNat) || (a.secs == b.secs && decide (a.nanos.val < b.nanos.val))

def le (a b : Dur) : Bool := !(lt b a)

/-- Total number of nanoseconds, used only in specifications. -/
def total (a : Dur) : Nat := a.secs.toNat * 1000000000 + a.nanos.val

theorem lt_iff {a b : Dur} : a.lt b = true ↔ a.total < b.total := by
  have ha := a.nanos.isLt
  have hb := b.nanos.isLt
  unfold lt total
  simp only [Bool.or_eq_true, decide_eq_true_eq, Bool.and_eq_true, beq_iff_eq]
  constructor
  · rintro (h | ⟨h, h'⟩)
    · omega
    · rw [h]; omega
  · intro h
    rcases Nat.lt_trichotomy a.secs.toNat b.secs.toNat with h1 | h1 | h1
    · exact Or.inl h1
    · exact Or.inr ⟨UInt64.toNat.inj h1, by omega⟩
    · omega

theorem le_iff {a b : Dur} : a.le b = true ↔ a.total ≤ b.total := by
  unfold le
  rw [Bool.not_eq_true', ← Bool.not_eq_true, lt_iff]; omega

/-- Whole seconds only. -/
def Whole (d : Dur) : Prop := d.nanos = 0

instance (d : Dur) : Decidable d.Whole := by unfold Whole; infer_instance

@[simp] theorem ofSecs_whole (s : UInt64) : (ofSecs s).Whole := rfl
@[simp] theorem ofSecs_secs (s : UInt64) : (ofSecs s).secs = s := rfl

theorem Whole.eq {d : Dur} (h : d.Whole) : ofSecs d.secs = d := by
  cases d; simp only [Whole] at h; subst h; rfl

theorem Whole.lt_iff {a b : Dur} (ha : a.Whole) (hb : b.Whole) :
    a.lt b = true ↔ a.secs.toNat < b.secs.toNat := by
  rw [Dur.lt_iff]; unfold total; rw [ha, hb]; simp

end Dur

end TG
