/-
Program logic for `M`: relations between the states before and after, and transparency of SQL faults.
-/
import Verif.Spec.History
import Verif.Spec.Db

namespace TG

/-- Whatever the outcome, `R` relates the states before and after. -/
def Steps {S ε α : Type} (R : S → S → Prop) (x : M S ε α) : Prop := ∀ s, R s (x s).2

namespace Steps
variable {S ε ε' α β : Type} {R : S → S → Prop}

theorem pure (hr : ∀ s, R s s) (a : α) : Steps R (Pure.pure a : M S ε α) := fun s => hr s
theorem lift (hr : ∀ s, R s s) (o : Outcome ε α) : Steps R (M.lift o : M S ε α) := fun s => hr s
theorem fail (hr : ∀ s, R s s) (e : ε) : Steps R (M.fail e : M S ε α) := fun s => hr s

theorem bind (ht : ∀ a b c, R a b → R b c → R a c) {x : M S ε α} {f : α → M S ε β}
    (hx : Steps R x) (hf : ∀ a, Steps R (f a)) : Steps R (x >>= f) := by
  intro s
  have h := hx s
  rw [M.bind_run]
  rcases hxs : x s with ⟨o, s'⟩
  rw [hxs] at h
  cases o with
  | ok a => exact ht _ _ _ h (hf a s')
  | _ => exact h

theorem lift_bind (hr : ∀ s, R s s) {o : Outcome ε α} {f : α → M S ε β}
    (hf : ∀ a, o = .ok a → Steps R (f a)) : Steps R (M.lift o >>= f) := by
  intro s
  rw [M.bind_run, M.lift_run]
  cases o with
  | ok a => exact hf a rfl s
  | _ => exact hr s

theorem mapErr {x : M S ε α} (hx : Steps R x) (g : ε → ε') : Steps R (x.mapErr g) := fun s => hx s

theorem mono {R' : S → S → Prop} {x : M S ε α} (hx : Steps R x) (h : ∀ a b, R a b → R' a b) :
    Steps R' x := fun s => h _ _ (hx s)

end Steps

/-- `P` is never broken. -/
def Preserves {S ε α : Type} (P : S → Prop) (x : M S ε α) : Prop := Steps (fun s s' => P s → P s') x

/-- The same tables, without faults. -/
def Db.calm (db : Db) : Db := { db with faults := [] }

@[simp] theorem Db.calm_calm (db : Db) : db.calm.calm = db.calm := rfl
theorem Db.NoFaults.calm_eq {db : Db} (h : db.NoFaults) : db.calm = db := by
  cases db; simp only [Db.NoFaults] at h; subst h; rfl
@[simp] theorem Db.calm_noFaults (db : Db) : db.calm.NoFaults := rfl

/-- Faults are never hidden: the call either fails with an error satisfying `F`, or behaves as if there were no faults. -/
def Transparent {ε α : Type} (F : ε → Prop) (x : M Db ε α) : Prop :=
  ∀ db, (∃ e, (x db).1 = .err e ∧ F e) ∨ ((x db).1 = (x db.calm).1 ∧ (x db).2.calm = (x db.calm).2)

namespace Transparent
variable {ε ε' α β : Type} {F : ε → Prop} {F' : ε' → Prop}

theorem pure (a : α) : Transparent F (Pure.pure a : M Db ε α) := fun _ => Or.inr ⟨rfl, rfl⟩
theorem lift (o : Outcome ε α) : Transparent F (M.lift o : M Db ε α) := fun _ => Or.inr ⟨rfl, rfl⟩
theorem fail (e : ε) : Transparent F (M.fail e : M Db ε α) := fun _ => Or.inr ⟨rfl, rfl⟩

theorem bind {x : M Db ε α} {f : α → M Db ε β} (hx : Transparent F x) (hf : ∀ a, Transparent F (f a)) :
    Transparent F (x >>= f) := by
  intro db
  rw [M.bind_run, M.bind_run]
  rcases h : x db with ⟨o, s⟩
  rcases h' : x db.calm with ⟨o', s'⟩
  have := hx db
  rw [h, h'] at this
  rcases this with ⟨e, he, hF⟩ | ⟨he, hs⟩
  · simp only at he; subst he
    exact Or.inl ⟨e, rfl, hF⟩
  · simp only at he hs; subst he; subst hs
    cases o with
    | ok a => exact hf a s
    | err e => exact Or.inr ⟨rfl, rfl⟩
    | panic => exact Or.inr ⟨rfl, rfl⟩
    | diverge => exact Or.inr ⟨rfl, rfl⟩

theorem mapErr {x : M Db ε α} (hx : Transparent F x) (g : ε → ε') (hg : ∀ e, F e → F' (g e)) :
    Transparent F' (x.mapErr g) := by
  intro db
  rw [M.mapErr_run, M.mapErr_run]
  rcases hx db with ⟨e, he, hF⟩ | ⟨he, hs⟩
  · exact Or.inl ⟨g e, by rw [he]; rfl, hg e hF⟩
  · exact Or.inr ⟨by rw [he], hs⟩

theorem ok {x : M Db ε α} (hx : Transparent F x) {db db' : Db} {a : α} (h : x db = (.ok a, db')) :
    x db.calm = (.ok a, db'.calm) := by
  rcases hx db with ⟨e, he, _⟩ | ⟨he, hs⟩
  · rw [h] at he; cases he
  · rw [h] at he hs
    exact Prod.ext he.symm hs.symm

end Transparent

end TG
