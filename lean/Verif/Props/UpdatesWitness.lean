/-
Examples for the hypotheses of C15–C22 and refutations of C15, C17, C21, C22 at full strength, in the toy environment.
-/
import Verif.Props.Updates
import Verif.Props.CertsWitness

namespace TG
open TG.Toy

set_option maxRecDepth 100000

namespace Small

/-- Root 1 trusts itself and key 2. -/
def ops : List Op :=
  [.setRoot (pk 1) 10,
   .addTrust (trust 1 1 1000 1) (pk 1) (s 1),
   .addTrust (trust 1 2 1000 1) (pk 1) (s 1)]

def db : Db := Op.runAll ops ⟨[], [], []⟩

theorem reachable : Reachable db := Reachable.init.runAll _

/-- After the root has renewed its trust in key 2 with the expiry time `u64::MAX`. -/
def db' : Db := (TrustGraph.addTrust (trust 1 2 (2 ^ 64 - 1) 2) (pk 1) (s 10) db).2

end Small

/-- C15, C20, C21: an accepted trust from key 2 to the new key 3 (C21: no revocations, key 2 not a root); weights before and after. -/
example : (TrustGraph.addTrust (trust 2 3 1000 1) (pk 2) (s 10) Small.db).1 = .ok 256 ∧
    (TrustGraph.weight (pk 3) (s 10) Small.db).1 = .ok 0 ∧
    (TrustGraph.weight (pk 3) (s 10) (TrustGraph.addTrust (trust 2 3 1000 1) (pk 2) (s 10) Small.db).2).1 = .ok 256 ∧
    asI64 (s 10).secs < asI64 (trust 2 3 1000 1).expiresAt.secs ∧
    (Small.db.relations.all (fun r => r.relationType == authType)) = true := by decide +kernel

/-- **C15 fails** for trusts that expire at or after 2^63: the root renews its trust in key 2 until the end of time, and key 2 loses its weight
(the database takes the expiry time for negative). -/
theorem C15_adding_never_lowers_fails :
    ∃ (db db' : Db) (t : Trust) (by' target : PublicKey) (now : Dur) (v w w' : Nat) (s s' : Db), Reachable db ∧
      now.total < t.expiresAt.total ∧ TrustGraph.addTrust t by' now db = (.ok v, db') ∧
      TrustGraph.weight target now db = (.ok w, s) ∧ TrustGraph.weight target now db' = (.ok w', s') ∧ w' < w := by
  have h1 : (TrustGraph.addTrust (trust 1 2 (2 ^ 64 - 1) 2) (pk 1) (s 10) Small.db).1 = .ok 512 := by decide +kernel
  have h2 : (TrustGraph.weight (pk 2) (s 10) Small.db).1 = .ok 512 := by decide +kernel
  have h3 : (TrustGraph.weight (pk 2) (s 10) Small.db').1 = .ok 0 := by decide +kernel
  exact ⟨Small.db, Small.db', trust 1 2 (2 ^ 64 - 1) 2, pk 1, pk 2, s 10, 512, 512, 0, _, _, Small.reachable,
    by decide, Prod.ext h1 rfl, Prod.ext h2 rfl, Prod.ext h3 rfl, by omega⟩

/-- C16: a revocation that takes effect. -/
example : (TrustGraph.revoke (revocation 1 2 5) Small.db).1 = .ok () ∧
    (TrustGraph.weight (pk 2) (s 10) Small.db).1 = .ok 512 ∧
    (TrustGraph.weight (pk 2) (s 10) (TrustGraph.revoke (revocation 1 2 5) Small.db).2).1 = .ok 0 := by decide +kernel

/-- **C17 fails** from 2^63 seconds on: the expired certificate of key 4 comes back. -/
theorem C17_time_never_raises_fails :
    ∃ (db : Db) (t1 t2 : Dur) (target : PublicKey) (cs1 cs2 : List Certificate) (s1 s2 : Db), Reachable db ∧
      t1.total ≤ t2.total ∧ TrustGraph.getAllCerts target t1 db = (.ok cs1, s1) ∧
      TrustGraph.getAllCerts target t2 db = (.ok cs2, s2) ∧ ∃ c ∈ cs2, c ∉ cs1 := by
  have h1 : (TrustGraph.getAllCerts (pk 4) (s 1001) F2.db).1 = .ok [] := by decide +kernel
  have h2 : (TrustGraph.getAllCerts (pk 4) (s (2 ^ 63)) F2.db).1 = .ok [F2.cert] := by decide +kernel
  exact ⟨F2.db, s 1001, s (2 ^ 63), pk 4, [], [F2.cert], _, _, Reachable.init.runAll _, by decide,
    Prod.ext h1 rfl, Prod.ext h2 rfl, F2.cert, by simp, by simp⟩

/-- C17: certificates at time 10 and none at time 1000, when the trusts have expired. -/
example : (TrustGraph.getAllCerts (pk 4) (s 10) F2.db).1 = .ok [F2.cert] ∧
    (TrustGraph.getAllCerts (pk 4) (s 1000) F2.db).1 = .ok [] ∧ (s 10).total ≤ (s 1000).total := by decide +kernel

/-- C18: an expired trust, and one signed by another key than claimed. -/
example : (trust 1 3 1000 1).expiresAt.total < (s 1001).total ∧
    (pk 2).verify (Trust.signatureBytes (pk 3) (s 1000) (s 1)) (trust 1 3 1000 1).signature ≠ .ok () ∧
    (TrustGraph.addTrust (trust 1 3 1000 1) (pk 1) (s 1001) Small.db).1 = .err (.trustVerificationError .expired) ∧
    (TrustGraph.addTrust (trust 1 3 1000 1) (pk 2) (s 10) Small.db).1
      = .err (.trustVerificationError (.signatureError .ed25519)) := by decide +kernel

/-- C19: key 5 has no weight; its valid trust in key 6 is not stored. -/
example : (trust 5 6 1000 1).verify (pk 5) (s 10) = .ok () ∧ (TrustGraph.weight (pk 5) (s 10) Small.db).1 = .ok 0 ∧
    TrustGraph.addTrust (trust 5 6 1000 1) (pk 5) (s 10) Small.db = (.ok 0, Small.db) := by decide +kernel

/-- Only a root, without its self-signed trust. -/
def F10.db : Db := Op.runAll [.setRoot (pk 1) 10] ⟨[], [], []⟩

/-- **C21 fails** (finding F15): the root's trust in key 2 is accepted with weight 512, but the root has no self-signed trust in the graph,
so key 2 has no certificate and weight 0. -/
theorem C21_returned_weight_reached_fails :
    ∃ (db db' db'' : Db) (t : Trust) (by' : PublicKey) (now : Dur) (w w' : Nat), Reachable db ∧
      TrustGraph.addTrust t by' now db = (.ok w, db') ∧ TrustGraph.weight t.issuedFor now db' = (.ok w', db'') ∧
      w' < w := by
  have h1 : (TrustGraph.addTrust (trust 1 2 1000 1) (pk 1) (s 10) F10.db).1 = .ok 512 := by decide +kernel
  have h2 : (TrustGraph.weight (pk 2) (s 10) (TrustGraph.addTrust (trust 1 2 1000 1) (pk 1) (s 10) F10.db).2).1 = .ok 0 := by
    decide +kernel
  exact ⟨F10.db, _, _, trust 1 2 1000 1, pk 1, s 10, 512, 0, Reachable.init.runAll _, Prod.ext h1 rfl, Prod.ext h2 rfl,
    by omega⟩

/-- The outcome of `add_trust`, and the weight that the recipient then has at that time. -/
def returnedAndReached (t : Trust) (by' : PublicKey) (now : Dur) (db : Db) : Outcome TrustGraphError Nat × Outcome TrustGraphError Nat :=
  ((TrustGraph.addTrust t by' now db).1, (TrustGraph.weight t.issuedFor now (TrustGraph.addTrust t by' now db).2).1)

/-- C21, the provisos one by one.  A trust that the database takes for expired (F4); an issuer that has revoked the recipient since; a key on the issuer's
certificate (2, of 3) that has revoked the recipient; a key on it (1) that has revoked a key after it (3, of 4), which does not lower the weight of key 4 (F2). -/
example :
    returnedAndReached (trust 1 2 (2 ^ 63) 2) (pk 1) (s 10) Small.db = (.ok 512, .ok 0) ∧
    returnedAndReached (trust 1 3 1000 1) (pk 1) (s 10) (Op.runAll [.revoke (revocation 1 3 5)] Small.db) = (.ok 512, .ok 0) ∧
    returnedAndReached (trust 3 4 1000 1) (pk 3) (s 10)
      (Op.runAll [.addTrust (trust 2 3 1000 1) (pk 2) (s 1), .revoke (revocation 2 4 5)] Small.db) = (.ok 128, .ok 0) ∧
    returnedAndReached (trust 4 5 1000 1) (pk 4) (s 10)
      (Op.runAll [.addTrust (trust 2 3 1000 1) (pk 2) (s 1), .addTrust (trust 3 4 1000 1) (pk 3) (s 1), .revoke (revocation 1 3 5)] Small.db)
      = (.ok 64, .ok 0) := by decide +kernel

namespace Busy

/-- Besides root 1 and key 2: key 2 trusts key 3, the root trusted key 4 and has revoked it, key 3 has revoked key 5, key 6 was revoked by key 2. -/
def db : Db := Op.runAll [.addTrust (trust 2 3 1000 1) (pk 2) (s 1), .addTrust (trust 1 4 1000 1) (pk 1) (s 1), .revoke (revocation 1 4 5),
  .revoke (revocation 3 5 5), .revoke (revocation 2 6 5), .revoke (revocation 5 7 5)] Small.db

/-- The certificate of key 3. -/
def cert : Certificate := ⟨[trust 1 1 1000 1, trust 1 2 1000 1, trust 2 3 1000 1]⟩

/-- No row says that `a` has revoked `b`. -/
def clear (a b : PublicKey) : Bool :=
  db.relations.all (fun row => !(row.relationType == revocationType && row.issuedBy == keyText a && row.issuedFor == keyText b))

theorem not_revoked {a b : PublicKey} (h : clear a b = true) (now : Dur) : ¬ (db.snapshot now).revoked a b := by
  rintro ⟨r, hr, rfl, rfl⟩
  have := List.all_eq_true.mp h _ hr.2
  simp [Sqlite.toRow, TrustRelation.issuedFor, TrustRelation.issuedBy] at this

theorem returned : (TrustGraph.getAllCerts (pk 3) (s 10) db).1 = .ok [cert] := by decide +kernel

theorem cert_clear : ∀ a ∈ [pk 1, pk 2], ∀ b ∈ [pk 2, pk 3, pk 5], clear a b = true := by decide +kernel

/-- The hypotheses of C21 about revocations, for key 3 taking back its revocation of key 5. -/
theorem provisos :
    (∀ r, db.Stored (.revocation r) → r.revokedBy = pk 3 → r.pk = pk 5 → r.revokedAt.total < (trust 3 5 1000 6).issuedAt.total) ∧
    ∀ c, Spec.Admissible (db.snapshot (s 10)) (pk 3) c → Spec.Unrevoked (db.snapshot (s 10)) c.chain ∧
      ∀ k ∈ c.keys, k ≠ pk 3 → ¬ (db.snapshot (s 10)).revoked k (pk 5) := by
  have hh : db.Healthy := (Small.reachable.runAll _).healthy
  constructor
  · intro r hr h1 h2
    have hs : db.Stored (.revocation (revocation 3 5 5)) := ⟨rfl, by decide +kernel⟩
    have := hh.stored_unique hr hs h2 h1
    cases this
    decide
  · intro c hc
    have hm := ((C02_complete_exactly_once hh (Prod.ext returned rfl)).2 c).mpr hc
    rw [List.mem_singleton.mp hm]
    have hkeys : cert.keys = [pk 1, pk 2, pk 3] := by decide +kernel
    constructor
    · intro i j a b hij ha hb
      have ha' : a.issuedFor ∈ [pk 1, pk 2] := by
        have hj : j < 3 := (List.getElem?_eq_some_iff.mp hb).1
        rcases i with _ | _ | i
        · cases ha; simp [trust, Trust.new]
        · cases ha; simp [trust, Trust.new]
        · omega
      have hb' : b.issuedFor ∈ [pk 2, pk 3, pk 5] := by
        rcases j with _ | _ | _ | j
        · omega
        · cases hb; simp [trust, Trust.new]
        · cases hb; simp [trust, Trust.new]
        · cases hb
      exact not_revoked (cert_clear _ ha' _ hb') _
    · intro k hk hne
      rw [hkeys] at hk
      refine not_revoked (cert_clear _ ?_ _ (by simp)) _
      simp only [List.mem_cons, List.not_mem_nil, or_false] at hk ⊢
      tauto

end Busy

/-- C21 with revocations around: key 3 gets key 5 back with a later trust, and gives weight to key 7, which the weightless key 5 has revoked. -/
example : returnedAndReached (trust 3 5 1000 6) (pk 3) (s 10) Busy.db = (.ok 128, .ok 128) ∧
    returnedAndReached (trust 3 7 1000 1) (pk 3) (s 10) Busy.db = (.ok 128, .ok 128) := by decide +kernel

namespace F10

/-- Root trust, trust in key 2, and a trust in key 3 that was not signed by key 2. -/
def cert : Certificate := ⟨[trust 1 1 1000 1, trust 1 2 1000 1, trust 9 3 1000 1]⟩

end F10

/-- **C22 fails** (finding F10): `add` reports an error, and the first two trusts of the certificate have been stored. -/
theorem C22_add_atomic_fails :
    ∃ (db db' : Db) (c : Certificate) (now : Dur) (e : TrustGraphError), Reachable db ∧
      TrustGraph.add c now db = (.err e, db') ∧ ∃ r, db'.Stored r ∧ ¬ db.Stored r := by
  have h1 : (TrustGraph.add F10.cert (s 10) F10.db).1
      = .err (.trustVerificationError (.signatureError .ed25519)) := by decide +kernel
  have h2 : Sqlite.toRow (.auth ⟨trust 1 2 1000 1, pk 1⟩) ∈ (TrustGraph.add F10.cert (s 10) F10.db).2.relations := by
    decide +kernel
  have h3 : F10.db.relations = [] := by decide +kernel
  refine ⟨F10.db, _, F10.cert, s 10, _, Reachable.init.runAll _, Prod.ext h1 rfl, .auth ⟨trust 1 2 1000 1, pk 1⟩,
    ⟨⟨rfl, rfl⟩, h2⟩, ?_⟩
  rintro ⟨-, h⟩
  rw [h3] at h
  cases h

/-- `add` also reports success when nothing at all was stored: here the first key is not a root. -/
example : TrustGraph.add ⟨[trust 2 2 1000 1, trust 2 3 1000 1]⟩ (s 10) F10.db = (.ok (), F10.db) := by decide +kernel

/-- C22: a certificate whose three trusts are all added. -/
example : (TrustGraph.add ⟨[trust 1 1 1000 1, trust 1 2 1000 1, trust 2 3 1000 1]⟩ (s 10) F10.db).1 = .ok () ∧
    (TrustGraph.add ⟨[trust 1 1 1000 1, trust 1 2 1000 1, trust 2 3 1000 1]⟩ (s 10) F10.db).2.relations.length = 3 := by
  decide +kernel

end TG
