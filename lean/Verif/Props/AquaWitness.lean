/-
Refutations of C78–C81 at full strength, and concrete cases for C75–C81, in the toy environment.
-/
import Verif.Props.AquaFlow
import Verif.Props.ServiceWitness

namespace TG.AquaDemo
open TG.Toy TG.Service TG.ServiceDemo

theorem pair_eq {α β : Type} {p : α × β} {a : α} (h : p.1 = a) : p = (a, p.2) := by
  cases h; rfl

/-- A node with this time; the service was created by key 1 and the script is started by key 1. -/
def node (now : UInt64) : Node := ⟨peer 50, peer 1, peer 1, now⟩

/-- A signature service that signs with key pair `n`. -/
def sign (n : Nat) : SigService := fun b =>
  match (kp n).sign b with
  | .ok s => some s.raw
  | _ => none

theorem signs (n : Nat) : Spec.SignsWith (sign n) (kp n) := by
  intro b s h
  unfold sign
  rw [h]

/-- **C78 fails** (F20): `get_weight_from` with an issuer written in the script is refused. -/
theorem C78_get_weight_from_fails : ¬ C78_statement := by
  intro h
  have h1 := h (node 10) [literal] [literal] (pk 2) (pk 1) db trivial trivial
  have h2 := (C78_get_weight_from_partial (node 10) [literal] [literal] (pk 2) (pk 1) db trivial trivial).2
    (by rintro ⟨rest, h⟩; simp [literal] at h)
  obtain ⟨w, hw⟩ := Db.weightFrom_returns reachable.healthy tables.2.2 (.inl rfl) (pk 2) (pk 1) (.ofSecs (node 10).now)
  unfold Spec.PassesOn at h1
  rw [h2, hw] at h1
  have := congrArg Prod.fst h1
  cases this

/-- Key 5, whom nobody trusts, adds a trust in key 6. -/
def weightless : Outcome Empty (Option AquaError) × Db :=
  Aqua.addTrust (node 10) db (sign 5) (node 10) [literal] [literal] (kp 5).pub.toPeerId.toBase58 (pk 6).toPeerId.toBase58 1000 db

set_option maxRecDepth 100000 in
theorem weightless_silent : weightless.1 = .ok none := by decide +kernel

set_option maxRecDepth 100000 in
theorem weightless_nothing : ∀ row ∈ weightless.2.relations, row.issuedBy ≠ keyText (pk 5) := by decide +kernel

theorem weightless_eq : weightless = (.ok none, weightless.2) := pair_eq weightless_silent

/-- **C79 fails** (F10): `add_trust` by a key without weight reports no error and stores nothing. -/
theorem C79_add_trust_fails : ¬ C79_statement := by
  intro h
  obtain ⟨t, -, ht⟩ := h (node 10) (node 10) db db weightless.2 (sign 5) (kp 5) (pk 6) [literal] [literal] 1000 reachable trivial trivial
    (signs 5) weightless_eq
  exact weightless_nothing _ ht.2 rfl

set_option maxRecDepth 100000 in
theorem setRoot_adds : (TrustGraph.setRoot (pk 7) (3 : UInt32).toNat db).1 = .ok () ∧
    (TrustGraph.setRoot (pk 7) (3 : UInt32).toNat db).2.roots.length = 2 := by decide +kernel

theorem setRoot_eq : TrustGraph.setRoot (pk 7) (3 : UInt32).toNat db = (.ok (), (TrustGraph.setRoot (pk 7) (3 : UInt32).toNat db).2) :=
  pair_eq setRoot_adds.1

/-- **C80 fails** (F22): with the clock of the node behind that of the relay `add_root_trust` reports an error, and yet the new root is
set, without its self-signed trust. -/
theorem C80_add_root_trust_fails : ¬ C80_statement := by
  intro h
  obtain ⟨t, -, -, -, -, -, h1⟩ := C80_add_root_trust (node 10) (node 9) db db (sign 7) (kp 7) [literal] [literal] [] 3 1000 trivial (signs 7)
  have h2 := ((h1 rfl).2 _ setRoot_eq).1 (by decide)
  have h3 := h (node 10) (node 9) db db _ (sign 7) (kp 7) [literal] [literal] [] 3 1000 _ reachable trivial (signs 7) h2
  have h4 : (TrustGraph.setRoot (pk 7) (3 : UInt32).toNat db).2.roots.length = db.roots.length := congrArg (fun d : Db => d.roots.length) h3
  rw [setRoot_adds.2, tables.2.1] at h4
  omega

/-- Key 1 revokes key 2 in the second in which it has trusted it. -/
def hasty : Outcome Empty (Option AquaError) × Db :=
  Aqua.revoke (node 1) db (sign 1) (node 1) [literal] (kp 1).pub.toPeerId.toBase58 (pk 2).toPeerId.toBase58 db

set_option maxRecDepth 100000 in
theorem hasty_silent : hasty.1 = .ok none := by decide +kernel

set_option maxRecDepth 100000 in
theorem hasty_nothing : Sqlite.toRow (.auth ⟨trust 1 2 1000 1, pk 1⟩) ∈ hasty.2.relations := by decide +kernel

theorem hasty_eq : hasty = (.ok none, hasty.2) := pair_eq hasty_silent

/-- **C81 fails** (F21): a revocation in the second in which the trust was issued reports no error and has no effect. -/
theorem C81_revoke_fails : ¬ C81_statement := by
  intro h
  exact h (node 1) (node 1) db db hasty.2 (sign 1) (kp 1) (pk 2) [literal] reachable trivial trivial (signs 1)
    hasty_eq (trust 1 2 1000 1) ⟨⟨rfl, rfl⟩, hasty_nothing⟩ rfl (Nat.le_refl _)

/-! ### Concrete cases -/

/-- C75, C77: a reachable database, on the target of the service; keys that peer ids can carry; a call with a time from the clock. -/
example : Env.wasm = true ∧ ((node 10).call [[literal], (node 10).clock]).FromHostClock 1 ∧ Reachable db ∧ db.NoFaults ∧
    (pk 2).NotRsa ∧ (skp 2).pub.NotRsa := ⟨rfl, ⟨[], rfl⟩, reachable, tables.2.2, trivial, trivial⟩

set_option maxRecDepth 100000 in
example : (Aqua.getWeight (node 10) [literal] (peer 2) db).1 = .ok ⟨true, none, (512, peer 2)⟩ := by decide +kernel

/-- C79: key 2 adds a trust in key 3, and the node stores it. -/
def added : Outcome Empty (Option AquaError) × Db :=
  Aqua.addTrust (node 10) db (sign 2) (node 11) [literal] [literal] (peer 2) (peer 3) 1000 db

set_option maxRecDepth 100000 in
example : added.1 = .ok none ∧ Sqlite.toRow (.auth ⟨trust 2 3 1000 10, pk 2⟩) ∈ added.2.relations := by decide +kernel

/-- C80: a new root. -/
def rooted : Outcome Empty (Option AquaError) × Db :=
  Aqua.addRootTrust (node 10) db (sign 7) (node 11) [literal] [literal] [] (peer 7) 3 1000 db

set_option maxRecDepth 100000 in
example : rooted.1 = .ok none ∧ Sqlite.toRow (.auth ⟨trust 7 7 1000 10, pk 7⟩) ∈ rooted.2.relations := by decide +kernel

/-- C81: a revocation that takes effect. -/
def revoked : Outcome Empty (Option AquaError) × Db :=
  Aqua.revoke (node 10) db (sign 1) (node 11) [literal] (peer 1) (peer 2) db

set_option maxRecDepth 100000 in
example : revoked.1 = .ok none ∧ Sqlite.toRow (.revocation (revocation 1 2 10)) ∈ revoked.2.relations := by decide +kernel

end TG.AquaDemo
