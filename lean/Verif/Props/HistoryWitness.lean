/-
Examples for the hypotheses of C29–C36 and C70, and refutations of C29, C30, C31, C34 at full strength, in the toy environment.
-/
import Verif.Props.Robust
import Verif.Props.RelationsWitness

namespace TG
open TG.Toy

set_option maxRecDepth 100000

namespace F6

/-- The root trusts key 2 at 10 and revokes it at 20. -/
def before : Db := Op.runAll
  [.setRoot (pk 1) 10, .addTrust (trust 1 1 1000 1) (pk 1) (s 1), .addTrust (trust 1 2 1000 10) (pk 1) (s 10),
   .revoke (revocation 1 2 20)] ⟨[], [], []⟩

/-- It trusts key 2 again from 30 to 40; at 50 somebody asks for certificates and then submits the trust of time 10 again. -/
def after : Db := Op.runAll
  [.addTrust (trust 1 2 40 30) (pk 1) (s 30), .getAllCerts (pk 2) (s 50), .addTrust (trust 1 2 1000 10) (pk 1) (s 50)] before

end F6

/-- **C29 fails** (finding F6): the superseding trust expires and is collected, and with it goes all memory of the revocation. -/
theorem C29_no_replay_fails :
    ∃ (db db' : Db) (r : Revocation) (a : Auth), Reachable db ∧ db.Stored (.revocation r) ∧ r.Covers a ∧
      a.trust.issuedAt.total ≤ r.revokedAt.total ∧ Later (fun _ => True) db db' ∧ db'.Stored (.auth a) := by
  have h1 : Sqlite.toRow (.revocation (revocation 1 2 20)) ∈ F6.before.relations := by decide +kernel
  have h2 : Sqlite.toRow (.auth ⟨trust 1 2 1000 10, pk 1⟩) ∈ F6.after.relations := by decide +kernel
  refine ⟨F6.before, F6.after, revocation 1 2 20, ⟨trust 1 2 1000 10, pk 1⟩, Reachable.init.runAll _, ⟨rfl, h1⟩, ⟨rfl, rfl⟩,
    by decide, ?_, ⟨⟨rfl, rfl⟩, h2⟩⟩
  exact .runAll _ (fun _ _ => trivial) _

/-- C29: a revocation that stays while an old trust is submitted again and time passes. -/
example : F6.before.Stored (.revocation (revocation 1 2 20)) ∧
    (Op.runAll [.addTrust (trust 1 2 1000 10) (pk 1) (s 50), .getAllCerts (pk 2) (s 60)] F6.before).Stored
      (.revocation (revocation 1 2 20)) := by
  refine ⟨⟨rfl, ?_⟩, ⟨rfl, ?_⟩⟩ <;> decide +kernel

/-- **C30 fails** (finding F5): at the very time of expiry the root's trust in key 2 verifies, but a query removes it. -/
theorem C30_counts_until_expiry_fails :
    ∃ (db : Db) (a : Auth) (now : Dur) (pk : PublicKey), Reachable db ∧ db.Stored (.auth a) ∧
      a.trust.verify a.issuedBy now = .ok () ∧ ¬ (TrustGraph.getAllCerts pk now db).2.Stored (.auth a) := by
  have h1 : Sqlite.toRow (.auth ⟨trust 1 2 1000 1, pk 1⟩) ∈ Small.db.relations := by decide +kernel
  have h2 : (trust 1 2 1000 1).verify (pk 1) (s 1000) = .ok () := by decide +kernel
  have h3 : (TrustGraph.getAllCerts (pk 2) (s 1000) Small.db).2.relations = [] := by decide +kernel
  refine ⟨Small.db, ⟨trust 1 2 1000 1, pk 1⟩, s 1000, pk 2, Small.reachable, ⟨⟨rfl, rfl⟩, h1⟩, h2, ?_⟩
  rintro ⟨-, h⟩
  rw [h3] at h
  cases h

/-- C30, C31: a trust that outlives queries just before its expiry. -/
example : (Op.runAll [.getAllCerts (pk 2) (s 998), .weight (pk 2) (s 999)] Small.db).Stored (.auth ⟨trust 1 2 1000 1, pk 1⟩) := by
  refine ⟨⟨rfl, rfl⟩, ?_⟩
  decide +kernel

/-- A root with its self-signed trust as `issue_root` makes it: expiring at `u64::MAX`. -/
def F4.db : Db := Op.runAll
  [.setRoot (pk 1) 10, .addTrust (trust 1 1 (2 ^ 64 - 1) 1) (pk 1) (s 1)] ⟨[], [], []⟩

/-- **C31 fails** (finding F4): a trust that expires at `u64::MAX` is removed by the next query. -/
theorem C31_far_future_fails :
    ∃ (db : Db) (a : Auth) (now : Dur) (pk : PublicKey), Reachable db ∧ db.Stored (.auth a) ∧
      now.total < a.trust.expiresAt.total ∧ ¬ (TrustGraph.getAllCerts pk now db).2.Stored (.auth a) := by
  have h1 : Sqlite.toRow (.auth ⟨trust 1 1 (2 ^ 64 - 1) 1, pk 1⟩) ∈ F4.db.relations := by decide +kernel
  have h3 : (TrustGraph.getAllCerts (pk 2) (s 1) F4.db).2.relations = [] := by decide +kernel
  refine ⟨F4.db, ⟨trust 1 1 (2 ^ 64 - 1) 1, pk 1⟩, s 1, pk 2, Reachable.init.runAll _, ⟨⟨rfl, rfl⟩, h1⟩, by decide, ?_⟩
  rintro ⟨-, h⟩
  rw [h3] at h
  cases h

/-- A root registered with chain length 1 and again with 10. -/
def F3.db : Db := Op.runAll [.setRoot (pk 1) 1] ⟨[], [], []⟩
def F3.db' : Db := (TrustGraph.setRoot (pk 1) 10 F3.db).2

/-- **C34 fails** (finding F3): the second `set_root` succeeds, but the weight stays that of the first. -/
theorem C34_latest_set_root_fails :
    ∃ (db db' db'' : Db) (pk : PublicKey) (n w : Nat) (now : Dur), Reachable db ∧ TrustGraph.setRoot pk n db = (.ok (), db') ∧
      TrustGraph.weight pk now db' = (.ok w, db'') ∧ w < 2 ^ min 16 n := by
  have h1 : (TrustGraph.setRoot (pk 1) 10 F3.db).1 = .ok () := by decide +kernel
  have h2 : (TrustGraph.weight (pk 1) (s 1) F3.db').1 = .ok 2 := by decide +kernel
  exact ⟨F3.db, F3.db', _, pk 1, 10, 2, s 1, Reachable.init.runAll _, Prod.ext h1 rfl, Prod.ext h2 rfl, by decide⟩

/-- C34: a first registration. -/
example : F3.db.rootFactor (pk 1) = some 15 ∧ F3.db.rootFactor (pk 2) = none := by decide +kernel

/-- Small's database, where the first insertion will fail. -/
def Faulty.db : Db := { Small.db with faults := [false, false, false, false, false, false, false, true, false] }

/-- C35: a trust is added; its eighth SQL statement fails; nothing is stored and the last entry of the schedule is left. -/
example : (TrustGraph.addTrust (trust 1 3 1000 1) (pk 1) (s 10) Faulty.db).1 = .err .internalStorageError ∧
    (TrustGraph.addTrust (trust 1 3 1000 1) (pk 1) (s 10) Faulty.db).2.relations = Small.db.relations ∧
    (TrustGraph.addTrust (trust 1 3 1000 1) (pk 1) (s 10) Faulty.db).2.faults = [false] := by decide +kernel

/-- C36: a query at an earlier time that removes a trust, and a later query. -/
def gcTwo : Db := Op.runAll
  [.setRoot (pk 1) 10, .addTrust (trust 1 1 1000 1) (pk 1) (s 1), .addTrust (trust 1 2 50 1) (pk 1) (s 1),
   .addTrust (trust 1 3 1000 1) (pk 1) (s 1)] ⟨[], [], []⟩

example : (Op.run (.weight (pk 3) (s 60)) gcTwo).relations.length = 2 ∧ gcTwo.relations.length = 3 ∧
    (TrustGraph.getAllCerts (pk 3) (s 70) (Op.run (.weight (pk 3) (s 60)) gcTwo)).1
      = .ok [⟨[trust 1 1 1000 1, trust 1 3 1000 1]⟩] := by decide +kernel

/-- C70: revoking key 2 takes away its certificate and leaves that of key 3. -/
example : (TrustGraph.getAllCerts (pk 3) (s 10) (Op.run (.revoke (revocation 1 2 5)) gcTwo)).1
      = .ok [⟨[trust 1 1 1000 1, trust 1 3 1000 1]⟩] ∧
    (TrustGraph.getAllCerts (pk 2) (s 10) gcTwo).1 = .ok [⟨[trust 1 1 1000 1, trust 1 2 50 1]⟩] ∧
    (TrustGraph.getAllCerts (pk 2) (s 10) (Op.run (.revoke (revocation 1 2 5)) gcTwo)).1 = .ok [] := by decide +kernel

/-- The full statement of C36, in the usual order of times. -/
def C36_statement : Prop := ∀ (db db' : Db) (now : Dur) (q : Op), Reachable db → q.IsQuery → (∀ t, q.time = some t → t = now) →
  Later (fun op => op.IsQuery ∧ ∀ t, op.time = some t → t.total ≤ now.total) db db' → db.NoFaults → db'.NoFaults → (q.call db').1 = (q.call db).1

/-- **C36 fails** from 2^63 seconds on (finding F18): the certificate of key 4, which expires at 1000, is returned at 2^63, but not after a query at 1001. -/
theorem C36_queries_do_not_disturb_fails : ¬ C36_statement := by
  intro h
  have h1 := h F2.db _ (s (2 ^ 63)) (.getAllCerts (pk 4) (s (2 ^ 63))) (Reachable.init.runAll _) trivial (fun t h => by cases h; rfl)
    (.step (.getAllCerts (pk 4) (s 1001)) ⟨trivial, fun t h => by cases h; decide⟩ .refl) (by change _ = _; decide +kernel) (by change _ = _; decide +kernel)
  exact absurd h1 (by decide +kernel)

/-- The full statement of C70, in the usual order of times. -/
def C70_statement : Prop := ∀ (db s s' : Db) (a b target : PublicKey) (now : Dur) (op : Op) (cs cs' : List Certificate), Reachable db →
  (∀ q, op.Submits q → q.issuedBy = a ∧ q.issuedFor = b) → (∀ pk n, op ≠ .setRoot pk n) → (∀ t, op.time = some t → t.total ≤ now.total) →
  TrustGraph.getAllCerts target now db = (.ok cs, s) → TrustGraph.getAllCerts target now (op.run db) = (.ok cs', s') →
  ∀ c, ¬ (a ∈ c.keys ∧ b ∈ c.keys) → (c ∈ cs' ↔ c ∈ cs)

/-- **C70 fails** from 2^63 seconds on (finding F18): a trust of key 1 in key 5 that is added at 1001 takes away the certificate of key 4, which expired at 1000 and
would otherwise be returned at 2^63. -/
theorem C70_unrelated_keys_unaffected_fails : ¬ C70_statement := by
  intro h
  have h1 : (TrustGraph.getAllCerts (pk 4) (s (2 ^ 63)) F2.db).1 = .ok [F2.cert] := by decide +kernel
  have h2 : (TrustGraph.getAllCerts (pk 4) (s (2 ^ 63)) ((Op.addTrust (trust 1 5 5000 1) (pk 1) (s 1001)).run F2.db)).1 = .ok [] := by decide +kernel
  have h3 := h F2.db _ _ (pk 1) (pk 5) (pk 4) (s (2 ^ 63)) (.addTrust (trust 1 5 5000 1) (pk 1) (s 1001)) _ _ (Reachable.init.runAll _) ?_
    (by intro pk n h; cases h) (fun t h => by cases h; decide) (Prod.ext h1 rfl) (Prod.ext h2 rfl) F2.cert (by decide +kernel)
  · exact absurd (h3.mpr (by simp)) (by simp)
  · intro q hq
    have := hq.1
    simp only [Op.offers, List.mem_singleton] at this
    subst this
    exact ⟨rfl, rfl⟩

/-- The full statement of C69, in the usual order of times. -/
def C69_statement : Prop := ∀ (db : Db) (t1 t2 : Dur), db.NoFaults → t1.total ≤ t2.total →
  (Storage.removeExpired t2 (Storage.removeExpired t1 db).2).2 = (Storage.removeExpired t2 db).2

/-- **C69 fails** from 2^63 seconds on (finding F18): what expired at 1000 is collected at 1001 but not at 2^63. -/
theorem C69_collect_composes_fails : ¬ C69_statement := by
  intro h
  have h1 := h F2.db (s 1001) (s (2 ^ 63)) rfl (by decide)
  have h2 : (Storage.removeExpired (s (2 ^ 63)) (Storage.removeExpired (s 1001) F2.db).2).2.relations.length ≠
    (Storage.removeExpired (s (2 ^ 63)) F2.db).2.relations.length := by decide +kernel
  exact h2 (by rw [h1])

end TG
