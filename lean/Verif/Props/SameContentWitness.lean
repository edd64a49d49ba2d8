/-
Two histories for C133 that end with the same content.
-/
import Verif.Props.SameContent
import Verif.Spec.Toy

namespace TG.SameContentDemo
open TG.Toy
set_option maxRecDepth 100000

/-- Root 1 trusts 2 and 3, 2 trusts 4, and 3 trusts 5. -/
def ops : List Op :=
  [.setRoot (pk 1) 10, .addTrust (trust 1 1 1000 1) (pk 1) (s 10), .addTrust (trust 1 2 1000 2) (pk 1) (s 10), .addTrust (trust 1 3 1000 1) (pk 1) (s 10),
   .addTrust (trust 2 4 1000 1) (pk 2) (s 10), .addTrust (trust 3 5 1000 1) (pk 3) (s 10)]

/-- The same trusts in another order, some of them twice, one of them replacing another one, one of them after a revocation has been overridden, one of them expired in the
meantime, and some calls refused. -/
def ops' : List Op :=
  [.setRoot (pk 1) 10, .addTrust (trust 3 5 1000 1) (pk 3) (s 10), .setRoot (pk 1) 3, .addTrust (trust 1 1 1000 1) (pk 1) (s 10),
   .addTrust (trust 1 2 500 1) (pk 1) (s 10), .addTrust (trust 1 9 12 1) (pk 1) (s 10), .add ⟨[trust 1 1 1000 1, trust 1 3 1000 1, trust 3 5 1000 1]⟩ (s 10),
   .revoke (revocation 2 4 0), .addTrust (trust 2 4 1000 1) (pk 2) (s 10), .addTrust (trust 1 2 1000 2) (pk 1) (s 10), .addTrust (trust 1 2 1000 2) (pk 1) (s 10),
   .addTrust (trust 1 7 1000 2) (pk 3) (s 10), .weight (pk 3) (s 12)]

def db : Db := Op.runAll ops ⟨[], [], []⟩
def db' : Db := Op.runAll ops' ⟨[], [], []⟩

/-- The rows are the same, in another order. -/
theorem facts : db.relations ≠ db'.relations ∧ db.relations.isPerm db'.relations = true ∧ db.roots.length = 1 ∧ db'.roots.length = 2 ∧ db.relations.length = 5 ∧
    db.faults = [] ∧ db'.faults = [] := by decide +kernel

/-- Both have 1 as a root with the same factor, and nothing else. -/
theorem same_roots : (∀ r ∈ db.roots ++ db'.roots, r.publicKey = keyText (pk 1)) ∧ db.roots.head?.map (·.weightFactor) = some 6 ∧
    db'.roots.head?.map (·.weightFactor) = some 6 := by decide +kernel

theorem rootFactor_of_only {d : Db} {k₀ : PublicKey} (h : ∀ r ∈ d.roots, r.publicKey = keyText k₀) (hd : d.roots.head?.map (·.weightFactor) = some 6) (k : PublicKey) :
    d.rootFactor k = if keyText k₀ = keyText k then some 6 else none := by
  unfold Db.rootFactor
  cases hr : d.roots with
  | nil => rw [hr] at hd; cases hd
  | cons r l =>
    rw [hr] at hd h
    have h6 : r.weightFactor = 6 := Option.some.inj hd
    have e := h r (List.mem_cons_self ..)
    split
    · next hk => rw [List.find?_cons_of_pos (by rw [e, hk]; exact decide_eq_true rfl), Option.map_some, h6]; rfl
    · next hk =>
      rw [List.find?_eq_none.mpr (fun x hx => by rw [h x hx]; exact fun hd => hk (of_decide_eq_true hd))]; rfl

theorem same_of_perm {d d' : Db} (hp : d.relations.Perm d'.relations) (hk : ∀ k, d.rootFactor k = d'.rootFactor k) : Spec.SameContent d d' :=
  ⟨fun _ => and_congr_right fun _ => hp.mem_iff, hk⟩

theorem same : Spec.SameContent db db' :=
  same_of_perm (List.isPerm_iff.mp facts.2.1) fun k =>
    (rootFactor_of_only (fun r hr => same_roots.1 r (List.mem_append_left _ hr)) same_roots.2.1 k).trans
      (rootFactor_of_only (fun r hr => same_roots.1 r (List.mem_append_right _ hr)) same_roots.2.2 k).symm

/-- C133: the two databases have the same content, though their tables differ, and later calls cannot tell them apart. -/
example : db ≠ db' ∧ Spec.SameContent db db' ∧ ∀ pk now,
    List.Forall₂ Spec.SameAnswer (Spec.answersOf [.getAllCerts pk now] db) (Spec.answersOf [.getAllCerts pk now] db') :=
  have h := facts
  ⟨fun e => h.1 (congrArg Db.relations e), same, fun _ _ =>
    (C133_indistinguishable (db := db) (db' := db') (Reachable.init.runAll ops) (Reachable.init.runAll ops') h.2.2.2.2.2.1 h.2.2.2.2.2.2 same _
      (by rw [h.2.2.2.2.1]; exact of_decide_eq_true rfl) (by rw [← (List.isPerm_iff.mp h.2.1).length_eq, h.2.2.2.2.1]; exact of_decide_eq_true rfl)).1⟩

end TG.SameContentDemo
