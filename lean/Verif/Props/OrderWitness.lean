/-
Orders of updates for C134, and what happens without its provisos.
-/
import Verif.Props.Order
import Verif.Spec.Toy

namespace TG.OrderDemo
open TG.Toy
set_option maxRecDepth 100000
set_option synthInstance.maxSize 1024

/-- A database with root 1. -/
def start : Db := Op.runAll [.setRoot (pk 1) 10] ⟨[], [], []⟩

def t (a b expires issued : Nat) : TrustRelation := .auth ⟨trust a b expires issued, pk a⟩
def r (a b at' : Nat) : TrustRelation := .revocation (revocation a b at')

/-- 1 trusts 2, revokes 2, and trusts 2 again; 2 trusts 3; a stranger revokes 2. -/
def calls : List (TrustRelation × Dur) :=
  [(t 1 1 1000 1, s 10), (t 1 2 1000 2, s 10), (r 1 2 3, s 10), (t 1 2 1000 4, s 11), (t 2 3 1000 1, s 12), (r 7 2 5, s 10)]

/-- Another order, with repetitions. -/
def calls' : List (TrustRelation × Dur) :=
  [(r 7 2 5, s 10), (t 1 1 1000 1, s 10), (t 1 2 1000 4, s 11), (t 1 2 1000 2, s 10), (t 2 3 1000 1, s 12), (r 1 2 3, s 10), (t 1 2 1000 2, s 10), (r 7 2 5, s 10)]

/-- The trust, if the message is one. -/
def authOf : TrustRelation → Option Auth
  | .auth a => some a
  | .revocation _ => none

theorem facts : (∀ p ∈ calls, p ∈ calls') ∧ (∀ p ∈ calls', p ∈ calls) ∧
    (∀ p ∈ calls, ∀ q ∈ calls, p.1.issuedFor = q.1.issuedFor ∧ p.1.issuedBy = q.1.issuedBy → p.1.issuedAt.secs = q.1.issuedAt.secs → p.1 = q.1) ∧
    (∀ p ∈ calls, ∀ m ∈ calls.map (·.1), ∀ a ∈ authOf m, asI64 p.2.secs < asI64 a.trust.expiresAt.secs) := by
  decide +kernel

theorem starts : start.relations = [] ∧ start.faults = [] ∧ start.roots.length = 1 := by decide +kernel

theorem answered : (∀ o ∈ Spec.answersOf (calls.map Spec.tellAt) start, o ≠ .ok (.weight 0)) ∧
    (∀ o ∈ Spec.answersOf (calls'.map Spec.tellAt) start, o ≠ .ok (.weight 0)) ∧
    (Op.runAll (calls.map Spec.tellAt) start).relations.length = 4 ∧
    (Op.runAll (calls.map Spec.tellAt) start).relations ≠ (Op.runAll (calls'.map Spec.tellAt) start).relations := by decide +kernel

theorem live {d : Db} (hd : d.relations = []) {p : TrustRelation × Dur} {l : List TrustRelation}
    (h : ∀ m ∈ l, ∀ a ∈ authOf m, asI64 p.2.secs < asI64 a.trust.expiresAt.secs) (a : Auth)
    (ha : d.Stored (.auth a) ∨ .auth a ∈ l) : Spec.Live a.trust p.2 := by
  rcases ha with ⟨-, ha⟩ | ha
  · rw [hd] at ha; cases ha
  · exact h _ ha a rfl

/-- C134: the two orders lead to the same content, though to different tables. -/
example : Spec.SameContent (Op.runAll (calls.map Spec.tellAt) start) (Op.runAll (calls'.map Spec.tellAt) start) :=
  C134_order (Reachable.init.runAll _) starts.2.1 (fun p => ⟨facts.1 p, facts.2.1 p⟩)
    (show start.relations.length + 6 + 16 < 2 ^ 32 by rw [starts.1]; decide) (show start.relations.length + 8 + 16 < 2 ^ 32 by rw [starts.1]; decide)
    facts.2.2.1 (fun p hp a ha => live starts.1 (facts.2.2.2 p hp) a ha) answered.1 answered.2.1

/-- Trusts by the root and revocations by others. -/
def roots : List (TrustRelation × Dur) := [(t 1 1 1000 1, s 10), (t 1 2 1000 2, s 10), (r 1 2 3, s 10), (t 1 3 1000 4, s 11), (r 3 1 5, s 10)]

theorem rootFacts :
    (∀ p ∈ roots, ∀ q ∈ roots, p.1.issuedFor = q.1.issuedFor ∧ p.1.issuedBy = q.1.issuedBy → p.1.issuedAt.secs = q.1.issuedAt.secs → p.1 = q.1) ∧
    (∀ p ∈ roots, ∀ m ∈ roots.map (·.1), ∀ a ∈ authOf m, asI64 p.2.secs < asI64 a.trust.expiresAt.secs) ∧
    (∀ m ∈ roots.map (·.1), ∀ a ∈ authOf m, start.rootFactor a.issuedBy = some 6) := by decide +kernel

theorem factor {d : Db} {l : List TrustRelation} (h : ∀ m ∈ l, ∀ a ∈ authOf m, d.rootFactor a.issuedBy = some 6) (a : Auth)
    (ha : .auth a ∈ l) : ∃ f, d.rootFactor a.issuedBy = some f ∧ (f ≤ 15 ∨ a.issuedBy = a.trust.issuedFor) := ⟨6, h _ ha a rfl, .inl (by omega)⟩

/-- C134: they can be told backwards as well. -/
example : Spec.SameContent (Op.runAll (roots.map Spec.tellAt) start) (Op.runAll (roots.reverse.map Spec.tellAt) start) :=
  C134_roots (Reachable.init.runAll _) starts.2.1 (fun _ => List.mem_reverse.symm)
    (show start.relations.length + 5 + 16 < 2 ^ 32 by rw [starts.1]; decide) (show start.relations.length + roots.reverse.length + 16 < 2 ^ 32 by rw [starts.1]; decide)
    rootFacts.1 (fun p hp a ha => live starts.1 (rootFacts.2.1 p hp) a ha) (factor rootFacts.2.2)

/-- Without the provisos the order matters.  If an `add_trust` answers 0, its trust is lost: -/
example : (Op.runAll ([(t 1 1 1000 1, s 10), (t 1 2 1000 1, s 10), (t 2 3 1000 1, s 10)].map Spec.tellAt) start).relations.length = 3 ∧
    (Op.runAll ([(t 1 1 1000 1, s 10), (t 2 3 1000 1, s 10), (t 1 2 1000 1, s 10)].map Spec.tellAt) start).relations.length = 2 := by decide +kernel

/-- of two messages of the same second the first stays: -/
example : (Op.runAll ([(t 1 2 1000 1, s 10), (r 1 2 1, s 10)].map Spec.tellAt) start).relations ≠
    (Op.runAll ([(r 1 2 1, s 10), (t 1 2 1000 1, s 10)].map Spec.tellAt) start).relations := by decide +kernel

/-- and a trust that has expired keeps an older revocation out, but only until it is removed. -/
example : (Op.runAll ([(t 1 2 20 5, s 10), (r 1 2 3, s 30), (t 1 1 1000 1, s 30)].map Spec.tellAt) start).relations.length = 1 ∧
    (Op.runAll ([(t 1 2 20 5, s 10), (t 1 1 1000 1, s 30), (r 1 2 3, s 30)].map Spec.tellAt) start).relations.length = 2 := by decide +kernel

end TG.OrderDemo
