/-
Two runs for C129.
-/
import Verif.Props.Renaming
import Verif.Props.MachineWitness

namespace TG.RenamingDemo
open TG.Toy TG.Spec TG.MachineDemo
set_option maxRecDepth 100000

/-- Key `n + 20` instead of key `n`, second `7n + 100` instead of second `n`, and everything signed anew. -/
def ren : Renaming where
  key a a' := ∃ n : Fin 20, a = pk n ∧ a' = pk (n + 20)
  date x x' := ∃ n : Nat, n < 2000 ∧ x = UInt64.ofNat n ∧ x' = UInt64.ofNat (7 * n + 100)
  sig s s' := (∃ a b e i, s = (trust a b e i).signature ∧ s' = (trust (a + 20) (b + 20) (7 * e + 100) (7 * i + 100)).signature) ∨
    ∃ a b i, s = (revocation a b i).signature ∧ s' = (revocation (a + 20) (b + 20) (7 * i + 100)).signature
  one := by
    rintro a a' b b' ⟨n, rfl, rfl⟩ ⟨m, rfl, rfl⟩
    revert n m
    decide +kernel
  order := by
    rintro x x' y y' ⟨n, hn, rfl, rfl⟩ ⟨m, hm, rfl, rfl⟩
    rw [UInt64.lt_iff_toNat_lt, UInt64.lt_iff_toNat_lt]
    rw [UInt64.toNat_ofNat', UInt64.toNat_ofNat', UInt64.toNat_ofNat', UInt64.toNat_ofNat', Nat.mod_eq_of_lt (by omega), Nat.mod_eq_of_lt (by omega),
      Nat.mod_eq_of_lt (by omega), Nat.mod_eq_of_lt (by omega)]
    omega
  half := by
    rintro x x' ⟨n, hn, rfl, rfl⟩
    rw [UInt64.toNat_ofNat', UInt64.toNat_ofNat', Nat.mod_eq_of_lt (by omega), Nat.mod_eq_of_lt (by omega)]
    omega

theorem key (n : Fin 20) : ren.key (pk n) (pk (n + 20)) := ⟨n, rfl, rfl⟩

theorem time (n : Nat) (h : n < 2000) : ren.time (s n) (s (7 * n + 100)) := ⟨⟨n, h, rfl, rfl⟩, rfl⟩

theorem trusts (a : Nat) (b : Fin 20) (e i : Nat) (he : e < 2000) (hi : i < 2000) :
    ren.trust (trust a b e i) (trust (a + 20) (b + 20) (7 * e + 100) (7 * i + 100)) :=
  ⟨key b, time e he, time i hi, .inl ⟨a, b, e, i, rfl, rfl⟩⟩

/-- The calls of `MachineDemo.ops` with other names and dates. -/
def ops' : List Op :=
  [.setRoot (pk 21) 10, .addTrust (trust 21 21 7100 107) (pk 21) (s 170), .add ⟨[trust 21 21 7100 107, trust 21 22 7100 107, trust 22 23 7100 107]⟩ (s 170),
   .weight (pk 23) (s 177), .getAllCerts (pk 23) (s 177), .addTrust (trust 21 24 7100 107) (pk 22) (s 184), .revoke (revocation 21 23 191), .weight (pk 23) (s 191),
   .getRevocations (pk 23), .weightFrom (pk 22) (pk 21) (s 191), .weight (pk 22) (s 7100)]

theorem answers_like {ρ : Renaming} {l l' : List Op} (h : List.Forall₂ ρ.op l l') (db db' : Db) :
    List.Forall₂ (fun p p' => ρ.op p.1 p'.1) (answers l db) (answers l' db') := by
  induction h generalizing db db' with
  | nil => exact .nil
  | cons h _ ih => exact .cons h (ih _ _)

theorem alike : List.Forall₂ ren.op ops ops' := by
  have v : ∀ {a a' : PublicKey} {t t' : Trust},
      decide (a.verify (Trust.signatureBytes t.issuedFor t.expiresAt t.issuedAt) t.signature = .ok ()) =
        decide (a'.verify (Trust.signatureBytes t'.issuedFor t'.expiresAt t'.issuedAt) t'.signature = .ok ()) → Renaming.Valid a t a' t' :=
    fun h => decide_eq_decide.mp h
  refine .cons (.setRoot (key 1)) <| .cons (.addTrust (trusts 1 1 1000 1 (by decide) (by decide)) (key 1) (time 10 (by decide)) (v (by decide +kernel))) <|
    .cons (.add ?_ (time 10 (by decide))) <| .cons (.weight (key 3) (time 11 (by decide))) <| .cons (.getAllCerts (key 3) (time 11 (by decide))) <|
    .cons (.addTrust (trusts 1 4 1000 1 (by decide) (by decide)) (key 2) (time 12 (by decide)) (v (by decide +kernel))) <|
    .cons (.revoke ⟨key 3, key 1, time 13 (by decide), .inr ⟨1, 3, 13, rfl, rfl⟩⟩ ?_) <|
    .cons (.weight (key 3) (time 13 (by decide))) <| .cons (.getRevocations (key 3)) <| .cons (.weightFrom (key 2) (key 1) (time 13 (by decide))) <|
    .cons (.weight (key 2) (time 1000 (by decide))) .nil
  · exact .cons (key 1) (trusts 1 1 1000 1 (by decide) (by decide)) (v (by decide +kernel)) <|
      .cons (key 1) (trusts 1 2 1000 1 (by decide) (by decide)) (v (by decide +kernel)) <|
      .cons (key 2) (trusts 2 3 1000 1 (by decide) (by decide)) (v (by decide +kernel)) .nil
  · have : decide ((revocation 1 3 13).revokedBy.verify (Revocation.signatureBytes (revocation 1 3 13).pk (revocation 1 3 13).revokedAt)
        (revocation 1 3 13).signature = .ok ()) =
      decide ((revocation 21 23 191).revokedBy.verify (Revocation.signatureBytes (revocation 21 23 191).pk (revocation 21 23 191).revokedAt)
        (revocation 21 23 191).signature = .ok ()) := by decide +kernel
    exact decide_eq_decide.mp this

/-- C129: the hypotheses are met, by a run with answers of all kinds (`MachineDemo.answers_eq`). -/
example : List.Forall₂ (fun p p' => ren.answer p.2 p'.2) (answers ops ⟨[], [], []⟩) (answers ops' ⟨[], [], []⟩) :=
  C129_names_do_not_matter ren (trace .start ops) (trace .start ops') (answers_like alike _ _) (by decide +kernel) (by decide +kernel)

/-- C129: for example, certificates. -/
example : ((answers ops' ⟨[], [], []⟩)[4]?).map (·.2) =
    some (.ok (.certs [⟨[trust 21 21 7100 107, trust 21 22 7100 107, trust 22 23 7100 107]⟩])) := by decide +kernel

end TG.RenamingDemo
