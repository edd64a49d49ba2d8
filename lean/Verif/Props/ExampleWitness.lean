/-
Concrete cases for C86 and C87: key 2 permits and forbids computations on node 6.
-/
import Verif.Props.AquaWitness
import Verif.Props.Example
import Verif.Props.ImportWitness

namespace TG.ExampleDemo
open TG.Toy TG.Service TG.AquaDemo

/-- A node with this time, in a script started by key 2. -/
def relay (now : UInt64) : Node := ⟨ServiceDemo.peer 50, ServiceDemo.peer 1, ServiceDemo.peer 2, now⟩

/-- The certificate of key 2. -/
def cert : Certificate := ⟨[trust 1 1 1000 1, trust 1 2 1000 1]⟩

set_option maxRecDepth 100000 in
theorem facts :
    Sqlite.toRow (.auth ⟨trust 1 1 1000 1, pk 1⟩) ∈ Demo.db.relations ∧
    Sqlite.toRow (.auth ⟨trust 1 2 1000 1, pk 1⟩) ∈ Demo.db.relations ∧
    (∀ row ∈ Demo.db.relations, row.issuedFor ≠ keyText (pk 6)) ∧
    (TrustGraph.weight (pk 2) (s 10) Demo.db).1 = .ok 512 ∧
    pk 1 ≠ pk 2 ∧ pk 2 ≠ pk 6 ∧ pk 1 ≠ pk 6 := by decide +kernel

theorem cert_live (now : Dur) (h : now.secs < 1000) : ∀ t ∈ cert.chain, Spec.Live t now := by
  have := UInt64.lt_iff_toNat_lt.mp h
  have h1000 : (1000 : UInt64).toNat = 1000 := rfl
  intro t ht
  have e : t.expiresAt.secs = 1000 := by
    rcases List.mem_cons.mp ht with rfl | ht
    · rfl
    rcases List.mem_cons.mp ht with rfl | ht
    · rfl
    cases ht
  refine (Spec.live_iff (by omega) ?_).mpr ?_
  · rw [e]; decide
  · rw [e]; exact this

/-- C87: key 2 can extend its certificate by a trust in key 6. -/
theorem extensible : Spec.Extensible Demo.db (pk 2) (pk 6) (s 10) cert := by
  obtain ⟨h1, h2, h6, -, n12, n26, n16⟩ := facts
  have hs1 : Demo.db.Stored (.auth ⟨trust 1 1 1000 1, pk 1⟩) := ⟨⟨rfl, rfl⟩, h1⟩
  have hs2 : Demo.db.Stored (.auth ⟨trust 1 2 1000 1, pk 1⟩) := ⟨⟨rfl, rfl⟩, h2⟩
  have hlive := cert_live (s 10) (by decide)
  have hu : Spec.Unrevoked (Demo.db.snapshot (s 10)) cert.chain := by
    rintro i j a b hij ha hb ⟨r, hr, hb', hp⟩
    have hj : j < 2 := (List.getElem?_eq_some_iff.mp hb).1
    obtain rfl : j = 1 := by omega
    obtain rfl : i = 0 := by omega
    cases ha
    cases hb
    cases Demo.reachable.healthy.stored_unique hr hs2 hp hb'
  refine ⟨?_, ?_, hu, fun t _ _ ⟨r, hr, _, hp⟩ => Demo.not_stored h6 hr hp⟩
  · refine ⟨⟨Nat.le_refl 2, ?_, ?_, ?_⟩, Spec.noRevisit_pair n12, fun i j a b hij ha hb _ => hu i j a b hij ha hb⟩
    · intro t ht
      cases ht
      exact ⟨Db.rootFactor_isSome.mp (show (Demo.db.rootFactor (pk 1)).isSome by rw [Demo.newCert_facts.1]; rfl), hs1, hlive _ (.head _)⟩
    · intro i a b ha hb
      have hj : i + 1 < 2 := (List.getElem?_eq_some_iff.mp hb).1
      obtain rfl : i = 0 := by omega
      cases ha
      cases hb
      exact ⟨hs2, hlive _ (.tail _ (.head _))⟩
    · intro t ht
      cases ht
      rfl
  · intro t ht
    rcases List.mem_cons.mp ht with rfl | ht
    · exact n16
    rcases List.mem_cons.mp ht with rfl | ht
    · exact n26
    cases ht

/-- C87: all hypotheses of the first part. -/
example : ∃ d, Aqua.addTrust (relay 10) Demo.db (sign 2) (relay 10) [] [] (pk 2).toPeerId.toBase58 (pk 6).toPeerId.toBase58 900 Demo.db = (.ok none, d) ∧
    (Example.trustedComputation (relay 899) [] [] (pk 6).toPeerId.toBase58 5 d).1 = .ok (some 5, none) := by
  obtain ⟨d, h1, h2⟩ := C87_permit (compute := 5) (relay := relay 10) (n := relay 10) (relayDb := Demo.db) (db := Demo.db) (sig := sign 2) (kp := kp 2)
    (node := pk 6) (o0 := []) (o1 := []) (e := 900) (c := cert) (w := 512) rfl Demo.reachable Demo.tables.2.2 (.inl rfl) (signs 2) (by decide) (by decide)
    (by decide) extensible ⟨_, pair_eq facts.2.2.2.1⟩ (by decide) (fun q hq _ h => absurd h (Demo.not_stored facts.2.2.1 hq))
  exact ⟨d, h1, h2 (relay 899) [] [] rfl (by decide) (cert_live _ (by decide))⟩

/-- Node 6 is trusted at time 10 and revoked at time 12. -/
def permitted : Outcome Empty (Option AquaError) × Db :=
  Aqua.addTrust (relay 10) Demo.db (sign 2) (relay 10) [] [] (pk 2).toPeerId.toBase58 (pk 6).toPeerId.toBase58 900 Demo.db

def forbidden : Outcome Empty (Option AquaError) × Db :=
  Aqua.revoke (relay 12) permitted.2 (sign 2) (relay 12) [] (pk 2).toPeerId.toBase58 (pk 6).toPeerId.toBase58 permitted.2

def hasty : Outcome Empty (Option AquaError) × Db :=
  Aqua.revoke (relay 10) permitted.2 (sign 2) (relay 10) [] (pk 2).toPeerId.toBase58 (pk 6).toPeerId.toBase58 permitted.2

set_option maxRecDepth 100000 in
/-- C86, C87: the answers before, between and after.  A revocation in the same second does nothing (F21). -/
example :
    (Example.trustedComputation (relay 9) [] [] (pk 6).toPeerId.toBase58 5 Demo.db).1 = .ok (none, some .noCerts) ∧
    permitted.1 = .ok none ∧
    (Example.trustedComputation (relay 11) [] [] (pk 6).toPeerId.toBase58 5 permitted.2).1 = .ok (some 5, none) ∧
    forbidden.1 = .ok none ∧
    (Example.trustedComputation (relay 13) [] [] (pk 6).toPeerId.toBase58 5 forbidden.2).1 = .ok (none, some .noCerts) ∧
    hasty.1 = .ok none ∧
    (Example.trustedComputation (relay 13) [] [] (pk 6).toPeerId.toBase58 5 hasty.2).1 = .ok (some 5, none) := by decide +kernel

/-- C87: the hypotheses of the second part, before anything is known about the node. -/
example : Reachable Demo.db ∧ Demo.db.NoFaults ∧ Spec.SignsWith (sign 2) (kp 2) ∧ (kp 2).pub ≠ pk 6 ∧
    ∀ q, Demo.db.Stored q → q.issuedBy = (kp 2).pub → q.issuedFor = pk 6 → q.issuedAt.total < (Dur.ofSecs (relay 12).now).total :=
  ⟨Demo.reachable, Demo.tables.2.2, signs 2, facts.2.2.2.2.2.1, fun _ hq _ h => absurd h (Demo.not_stored facts.2.2.1 hq)⟩

end TG.ExampleDemo
