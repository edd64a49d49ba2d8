/-
Refutations of C57, C58 and C74, and concrete cases for the theorems about the service.
-/
import Verif.Props.ServiceFlow
import Verif.Props.Formats

namespace TG.ServiceDemo
open TG.Toy TG.Service

/-- The textual peer id of key `n`. -/
def peer (n : Nat) : Str := (pk n).toPeerId.toBase58

/-- The origin of values made by the clock of the host. -/
def clock : Tetraplet := ⟨peer 50, "peer".toList, "timestamp_sec".toList⟩

/-- A constant in the script of the caller. -/
def literal : Tetraplet := ⟨peer 9, [], []⟩

/-- A call by key 9 on a service created by key 1 on host 50, with the given origins of its arguments. -/
def ctx (ts : List (List Tetraplet)) : CallParams := ⟨peer 9, peer 1, peer 50, ts⟩

/-- Root 1 with self-signed trust and a trust for key 2, both valid until 1000. -/
def db : Db := Op.runAll
  [.setRoot (pk 1) 10, .addTrust (trust 1 1 1000 1) (pk 1) (s 1), .addTrust (trust 1 2 1000 1) (pk 1) (s 1)] ⟨[], [], []⟩

theorem reachable : Reachable db := Reachable.init.runAll _

set_option maxRecDepth 100000 in
theorem tables : db.relations.length = 2 ∧ db.roots.length = 1 ∧ db.faults = [] := by decide +kernel

set_option maxRecDepth 100000 in
theorem keys : extractPublicKey (peer 2) = .ok (pk 2) ∧ extractPublicKey (peer 1) = .ok (pk 1) := by decide +kernel

theorem clock_only_issuer : (ctx [[literal], [clock], [literal]]).FromHostClock 1 ∧
    ¬ (ctx [[literal], [clock], [literal]]).FromHostClock 2 := by
  refine ⟨⟨[], rfl⟩, ?_⟩
  rintro ⟨rest, h⟩
  simp [ctx, literal] at h

theorem clock_only_time : (ctx [[literal], [literal], [clock]]).FromHostClock 2 ∧
    ¬ (ctx [[literal], [literal], [clock]]).FromHostClock 1 := by
  refine ⟨⟨[], rfl⟩, ?_⟩
  rintro ⟨rest, h⟩
  simp [ctx, literal] at h

/-- **C57** fails (F8), in both directions: a timestamp from the host's clock is refused, and a made-up one accepted when the issuer
comes from the clock. -/
theorem C57_fails :
    ¬ C57_statement ∧
    ((ctx [[literal], [literal], [clock]]).FromHostClock 2 ∧
      ¬ (Call.getWeightFrom (peer 2) (peer 1) 10).Succeeds (ctx [[literal], [literal], [clock]]) db) ∧
    (¬ (ctx [[literal], [clock], [literal]]).FromHostClock 2 ∧
      (Call.getWeightFrom (peer 2) (peer 1) 10).Succeeds (ctx [[literal], [clock], [literal]]) db) := by
  have key := fun cp => C57_checks_the_issuer_partial cp (peer 2) (peer 1) 10 db _ _ keys.1 keys.2 reachable tables.2.2 (.inl rfl)
  have h1 : ¬ (Call.getWeightFrom (peer 2) (peer 1) 10).Succeeds (ctx [[literal], [literal], [clock]]) db :=
    fun h => clock_only_time.2 ((key _).mp h)
  refine ⟨fun h => h1 ?_, ⟨clock_only_time.1, h1⟩, clock_only_issuer.2, (key _).mpr clock_only_issuer.1⟩
  exact (h _ _ _ 10 db _ _ keys.1 keys.2 reachable tables.2.2 (by rw [tables.1]; decide)).mpr clock_only_time.1

/-- A self-signed trust of key 9, whom nobody trusts, valid very long. -/
def spam : CertDto := ⟨[Dto.ofTrust (trust 9 9 2000000000 1)]⟩

set_option maxRecDepth 100000 in
/-- After key 9 inserted it with a made-up timestamp, no relation is left. -/
theorem nothing_left : ((Call.insertCert spam 1999999999).run (ctx [[literal], [literal]]) db).2.relations = [] := by decide +kernel

set_option maxRecDepth 100000 in
theorem stored : Sqlite.toRow (.auth ⟨trust 1 2 1000 1, pk 1⟩) ∈ db.relations := by decide +kernel

/-- **C58** fails (F9): anybody can make the service drop all trusts, by inserting a certificate with a late timestamp. -/
theorem C58_fails : ¬ C58_statement := by
  intro h
  have hlive : (db.snapshot (s 10)).trusted (pk 1) (trust 1 2 1000 1) := ⟨⟨⟨rfl, rfl⟩, stored⟩, by unfold Spec.Live; decide⟩
  have hno : ¬ ∃ n, (Call.insertCert spam 1999999999).timestampArg = some n ∧ (ctx [[literal], [literal]]).FromHostClock n := by
    rintro ⟨n, h1, rest, h2⟩
    cases h1
    simp [ctx, literal] at h2
  have := (h _ _ db (s 10) reachable hno _ _ hlive).1.2
  rw [nothing_left] at this
  exact List.not_mem_nil this

/-- **C74** fails for `insert_cert_raw` (F13): the empty text traps the service. -/
theorem C74_no_trap_fails : ¬ ∀ (c : Call) (cp : CallParams) (db : Db), Reachable db → c.Answers cp db := by
  intro h
  obtain ⟨ok, e, h⟩ := h (.insertCertRaw [] 0) (ctx []) ⟨[], [], []⟩ .init
  have : (Call.insertCertRaw [] 0).run (ctx []) ⟨[], [], []⟩ = (.panic, ⟨[], [], []⟩) := by
    show status (Service.insertCertRaw (ctx []) [] 0) _ = _
    unfold Service.insertCertRaw
    rw [C49_no_panic_fails.2.2.2.2.2.1]
    rfl
  rw [this] at h
  cases h

/-! ### Concrete cases -/

/-- C55: key 9 is not the creator; key 1 is, and changes the roots. -/
example : (ctx []).initPeerId ≠ (ctx []).serviceCreatorPeerId := by decide +kernel

set_option maxRecDepth 100000 in
example : ((Call.setRoot (peer 7) 3).run { ctx [] with initPeerId := peer 1 } db).2.roots ≠ db.roots := by decide +kernel

/-- C56: a refused query, and one that succeeds. -/
example : ¬ (ctx [[literal], [literal]]).FromHostClock 1 ∧ ¬ (Call.getWeight (peer 2) 10).Unchecked :=
  ⟨by rintro ⟨r, h⟩; simp [ctx, literal] at h, id⟩

set_option maxRecDepth 100000 in
example : (Service.getWeight (ctx [[literal], [clock]]) (peer 2) 10 db).1 = .ok ⟨true, none, (512, peer 2)⟩ := by decide +kernel

/-- C58: a call that changes the relations. -/
example : ((Call.getWeight (peer 2) 5000).run (ctx [[literal], [clock]]) db).2.relations ≠ db.relations := by
  set_option maxRecDepth 100000 in decide +kernel

/-- C59: a trust issued at 20 presented at 10. -/
example : (10 : UInt64) < (Dto.ofTrust (trust 1 3 1000 20)).issuedAt := by decide

/-- C61: Ed25519 and Secp256k1 keys. -/
example : (kp 1).pub.NotRsa ∧ (skp 1).pub.NotRsa ∧ (ctx [[literal], [literal], [clock]]).FromHostClock 2 ∧ Reachable db ∧
    db.NoFaults ∧ db.Bounded 0 ∧ (1 : UInt64) ≤ 10 := ⟨trivial, trivial, ⟨[], rfl⟩, reachable, tables.2.2, .inl rfl, by decide⟩

/-- C62: a failed and a successful call. -/
example : (Service.getWeight (ctx [[literal], [literal]]) (peer 2) 10 db).1 = .ok ⟨false, some .invalidTimestampTetraplet, (0, [])⟩ := by
  set_option maxRecDepth 100000 in decide +kernel

/-- C64: both calls with timestamps from the clock. -/
example : (ctx [[clock]]).FromHostClock 0 ∧ (ctx [[literal], [clock]]).FromHostClock 1 := ⟨⟨[], rfl⟩, ⟨[], rfl⟩⟩

/-- C74: any call on the database above; the text of a certificate that can be read. -/
example : Reachable db ∧ db.Bounded (Call.insertCert spam 10).size ∧
    (Certificate.fromStr (Certificate.toText ⟨[trust 1 1 1000 1, trust 1 2 1000 1]⟩)).NoTrap := by
  refine ⟨reachable, .inl rfl, ?_⟩
  rw [C48_text_roundtrip _ (by intro t ht; simp at ht; rcases ht with rfl | rfl <;> exact ⟨rfl, rfl⟩)]
  exact .ok _

end TG.ServiceDemo
