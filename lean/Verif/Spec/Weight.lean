/-
Specification of weights.
-/
import Mathlib.Order.Bounds.Basic
import Verif.Spec.Db

namespace TG
variable [Env]

/-- The weight factor of a registered root: that of its first row.  After one `set_root(pk, n)` it is
`16 - min(16, n)`. -/
def Db.rootFactor (db : Db) (pk : PublicKey) : Option Nat :=
  (db.roots.find? (fun r => r.publicKey = keyText pk)).map (·.weightFactor.toNat)

/-- What a certificate is worth: the weight `2^(16 - factor)` of its root, halved for every trust after the root
trust, but at least 1.  (In natural numbers `2^(a - b)` is `2^a` halved `b` times, stopping at 1.) -/
def Db.certWeight (db : Db) (c : Certificate) : Nat :=
  match c.chain with
  | [] => 0
  | root :: rest =>
    match db.rootFactor root.issuedFor with
    | none => 0
    | some f => 2 ^ (16 - (f + rest.length))

/-- The candidates for the weight of `pk`: 0, its weight as a root, and the worth of its certificates. -/
def Spec.weights (db : Db) (pk : PublicKey) (now : Dur) : Set Nat := fun w =>
  w = 0 ∨ (∃ f, db.rootFactor pk = some f ∧ w = 2 ^ (16 - f)) ∨
    ∃ c, Admissible (db.snapshot now) pk c ∧ w = db.certWeight c

/-- The candidates for the weight of `pk` conferred through `issuer`. -/
def Spec.weightsFrom (db : Db) (pk issuer : PublicKey) (now : Dur) : Set Nat := fun w =>
  w = 0 ∨ ∃ c, Admissible (db.snapshot now) pk c ∧ (∃ t ∈ c.chain, t.issuedFor = issuer) ∧ w = db.certWeight c

end TG
