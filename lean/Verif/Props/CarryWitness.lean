/-
Examples for the hypotheses of C95, and the refutation of its full strength.
-/
import Verif.Props.Carry
import Verif.Props.UpdatesWitness

namespace TG
open TG.Toy

set_option maxRecDepth 100000

namespace CarryDemo

/-- Roots 1 and 9.  Key 7 has a certificate from root 1 by keys 2, 3, 5, 6, 10, and one from root 9 by keys 3, 4, 8.  Key 2 has revoked key 4. -/
def A : Db := Op.runAll
  [.setRoot (pk 1) 10, .setRoot (pk 9) 5, .addTrust (trust 1 1 1000 1) (pk 1) (s 1), .addTrust (trust 9 9 1000 1) (pk 9) (s 1),
   .addTrust (trust 1 2 1000 1) (pk 1) (s 1), .addTrust (trust 2 3 1000 1) (pk 2) (s 1), .addTrust (trust 3 5 1000 1) (pk 3) (s 1),
   .addTrust (trust 5 6 1000 1) (pk 5) (s 1), .addTrust (trust 6 10 1000 1) (pk 6) (s 1), .addTrust (trust 10 7 1000 1) (pk 10) (s 1),
   .addTrust (trust 9 3 1000 1) (pk 9) (s 1), .addTrust (trust 3 4 1000 1) (pk 3) (s 1), .addTrust (trust 4 8 1000 1) (pk 4) (s 1),
   .addTrust (trust 8 7 1000 1) (pk 8) (s 1), .revoke (revocation 2 4 5)] ⟨[], [], []⟩

/-- The new node. -/
def B : Db := Op.runAll [.setRoot (pk 1) 10, .setRoot (pk 9) 5] ⟨[], [], []⟩

/-- The certificates of key 7 on `A`. -/
def certs : List Certificate :=
  [⟨[trust 9 9 1000 1, trust 9 3 1000 1, trust 3 4 1000 1, trust 4 8 1000 1, trust 8 7 1000 1]⟩,
   ⟨[trust 9 9 1000 1, trust 9 3 1000 1, trust 3 5 1000 1, trust 5 6 1000 1, trust 6 10 1000 1, trust 10 7 1000 1]⟩,
   ⟨[trust 1 1 1000 1, trust 1 2 1000 1, trust 2 3 1000 1, trust 3 5 1000 1, trust 5 6 1000 1, trust 6 10 1000 1, trust 10 7 1000 1]⟩]

/-- They are imported at times 20, 21, 22. -/
def cs : List (Certificate × Dur) := certs.zip [s 20, s 21, s 22]

theorem reachableA : Reachable A := Reachable.init.runAll _
theorem reachableB : Reachable B := Reachable.init.runAll _

theorem facts : (TrustGraph.getAllCerts (pk 7) (s 10) A).1 = .ok certs ∧ B.roots = A.roots ∧ (TrustGraph.weight (pk 7) (s 10) A).1 = .ok 16 ∧
    (TrustGraph.weight (pk 10) (s 10) A).1 = .ok 32 ∧ A.relations.length + 16 < 2 ^ 32 := by decide +kernel

theorem pair {α β : Type} {x : α × β} {a : α} (h : x.1 = a) : x = (a, x.2) := Prod.ext h rfl

theorem empty : B.relations = [] := by decide +kernel
theorem noFaults : B.NoFaults := show B.faults = [] by decide +kernel
theorem limit : ∀ p ∈ cs, ∀ t ∈ p.1.chain[0]?, ∀ f ∈ B.rootFactor t.issuedFor, p.1.chain.length ≤ 16 - f + 1 := by decide +kernel
theorem live : ∀ p ∈ cs, ∀ q ∈ cs, ∀ t ∈ p.1.chain, asI64 q.2.secs < asI64 t.expiresAt.secs := by decide +kernel
theorem time : ∀ q ∈ cs, q.2.secs.toNat < 2 ^ 63 := by decide +kernel
theorem all : cs.map (·.1) = certs := by decide +kernel

/-- The import succeeds.  On the new node there is one more certificate of key 7, the one that key 2 has revoked on `A`. -/
theorem added : (addAll cs B).1 = .ok () ∧ (TrustGraph.weight (pk 7) (s 10) (addAll cs B).2).1 = .ok 32 ∧
    (match (TrustGraph.getAllCerts (pk 7) (s 30) (addAll cs B).2).1 with | .ok cs => cs | _ => []).map Certificate.keys =
      [[pk 9, pk 3, pk 4, pk 8, pk 7], [pk 1, pk 2, pk 3, pk 4, pk 8, pk 7], [pk 9, pk 3, pk 5, pk 6, pk 10, pk 7],
       [pk 1, pk 2, pk 3, pk 5, pk 6, pk 10, pk 7]] := by decide +kernel

theorem carried : Spec.Carried A B (s 10) cs where
  empty r h := by
    have := h.2
    rw [empty] at this
    cases this
  roots k := Db.rootFactor_congr facts.2.1 k
  returned p hp := ⟨pk 7, certs, _, pair facts.1, (List.of_mem_zip hp).1⟩
  limit p hp t f ht hf := limit p hp t ht f ((Db.rootFactor_congr facts.2.1 _).trans hf)
  live p hp q hq t ht := live p hp q hq t ht
  time := time

/-- The remaining hypotheses of C95. -/
example : (cs.map (·.1.chain.length)).sum + 16 < 2 ^ 32 ∧ (∀ c ∈ certs, ∃ p ∈ cs, p.1 = c) := by decide +kernel

/-- Only the certificate by keys 2, 3, 5, 6, 10 carried: nobody on it has revoked another key on it, and key 10 has the same weight as on `A`. -/
example : (TrustGraph.weight (pk 10) (s 10) (addAll [(⟨[trust 1 1 1000 1, trust 1 2 1000 1, trust 2 3 1000 1, trust 3 5 1000 1, trust 5 6 1000 1,
      trust 6 10 1000 1]⟩, s 20)] B).2).1 = .ok 32 := by decide +kernel

end CarryDemo

open CarryDemo in
/-- **C95 fails** for weights (finding F26): revocations are not carried with the certificates, so on the new node key 7 gets weight 32, from a chain that
key 2 has revoked; on the first node it has weight 16. -/
theorem C95_weight_fails :
    ∃ (A A' A'' B B' B'' : Db) (asked : Dur) (cs : List (Certificate × Dur)) (k : PublicKey) (certs : List Certificate) (wA wB : Nat),
      Reachable A ∧ Reachable B ∧ B.NoFaults ∧ Spec.Carried A B asked cs ∧ TrustGraph.getAllCerts k asked A = (.ok certs, A') ∧
      cs.map (·.1) = certs ∧ TrustGraph.weight k asked A = (.ok wA, A'') ∧ addAll cs B = (.ok (), B') ∧
      TrustGraph.weight k asked B' = (.ok wB, B'') ∧ wA < wB := by
  exact ⟨A, _, _, B, _, _, s 10, cs, pk 7, certs, 16, 32, reachableA, reachableB, noFaults, carried, pair facts.1, all,
    pair facts.2.2.1, pair added.1, pair added.2.1, by decide⟩

end TG
