/-
Examples for the hypotheses of C01–C09 and refutations of C07, C08, C09 at full strength, all in the toy environment.
-/
import Verif.Props.Certs

namespace TG
open TG.Toy

set_option maxRecDepth 100000

/-- C01–C05: key 4 of the demo database (a cycle, a self-signed trust in the middle, two routes) has four certificates. -/
example : ∃ cs db', Demo.db.Healthy ∧ TrustGraph.getAllCerts (pk 4) (s 10) Demo.db = (.ok cs, db') ∧
    cs.map Demo.keys = [[1, 3, 4], [1, 2, 3, 4], [1, 3, 3, 4], [1, 2, 3, 3, 4]] := by
  have hh := Demo.reachable.healthy
  have he := Db.getAllCerts_eq hh Demo.tables.2.2 (pk 4) (s 10)
  refine ⟨_, _, hh, he, ?_⟩
  have := Demo.certs
  rw [he] at this
  exact this

/-- C04: with a failing statement the same query reports a storage error. -/
example : (TrustGraph.getAllCerts (pk 4) (s 10) { Demo.db with faults := [false, false, true] }).1
    = .err .internalStorageError := by decide +kernel

/-- The demo database after key 2 has also revoked key 4. -/
def Demo.db6 : Db := Op.runAll [.revoke (revocation 2 4 5)] Demo.db

theorem Demo.reachable6 : Reachable Demo.db6 := Demo.reachable.runAll _

/-- C06: there is a revocation of the target, and certificates remain. -/
example : Demo.db6.Healthy ∧ (Demo.db6.snapshot (s 10)).revoked (pk 2) (pk 4) ∧
    (match (TrustGraph.getAllCerts (pk 4) (s 10) Demo.db6).1 with
    | .ok cs => cs.map Demo.keys
    | _ => []) = [[1, 3, 4], [1, 3, 3, 4]] := by
  refine ⟨Demo.reachable6.healthy, ⟨revocation 2 4 5, ⟨rfl, ?_⟩, rfl, rfl⟩, ?_⟩
  · decide +kernel
  · decide +kernel

namespace F2

/-- Root 1 trusts 2, 2 trusts 3, 3 trusts 4; then 1 revokes 3. -/
def ops : List Op :=
  [.setRoot (pk 1) 10,
   .addTrust (trust 1 1 1000 1) (pk 1) (s 1),
   .addTrust (trust 1 2 1000 1) (pk 1) (s 1),
   .addTrust (trust 2 3 1000 1) (pk 2) (s 1),
   .addTrust (trust 3 4 1000 1) (pk 3) (s 1),
   .revoke (revocation 1 3 5)]

def db : Db := Op.runAll ops ⟨[], [], []⟩

def cert : Certificate := ⟨[trust 1 1 1000 1, trust 1 2 1000 1, trust 2 3 1000 1, trust 3 4 1000 1]⟩

theorem returned : (TrustGraph.getAllCerts (pk 4) (s 10) db).1 = .ok [cert] := by decide +kernel
theorem gone : (TrustGraph.getAllCerts (pk 3) (s 10) db).1 = .ok [] := by decide +kernel
theorem stored : Sqlite.toRow (.revocation (revocation 1 3 5)) ∈ db.relations := by decide +kernel

end F2

/-- **C07 fails** (finding F2): the root has revoked key 3 (which therefore has no certificate any more), yet the
certificate root → 2 → 3 → 4 is still returned. -/
theorem C07_revocation_on_chain_fails :
    ∃ (db : Db) (target : PublicKey) (now : Dur) (cs : List Certificate) (db' : Db), Reachable db ∧
      TrustGraph.getAllCerts target now db = (.ok cs, db') ∧
      ∃ c ∈ cs, ¬ Spec.Unrevoked (db.snapshot now) c.chain := by
  refine ⟨F2.db, pk 4, s 10, [F2.cert], _, Reachable.init.runAll _, Prod.ext F2.returned rfl, F2.cert,
    by simp, ?_⟩
  intro h
  exact h 0 2 _ _ (by omega) rfl rfl ⟨revocation 1 3 5, ⟨rfl, F2.stored⟩, rfl, rfl⟩

/-- **C08 fails** for times from 2^63 on: the database compares times as signed numbers, so a trust that expired long ago
counts as live and is returned in certificates that do not verify. -/
theorem C08_returned_verify_fails :
    ∃ (db : Db) (target : PublicKey) (now : Dur) (cs : List Certificate) (db' : Db) (roots : List PublicKey),
      Reachable db ∧ TrustGraph.getAllCerts target now db = (.ok cs, db') ∧
      (∀ pk, (db.snapshot now).root pk → pk ∈ roots) ∧ ∃ c ∈ cs, c.verify roots now ≠ .ok () := by
  have hret : (TrustGraph.getAllCerts (pk 4) (s (2 ^ 63)) F2.db).1 = .ok [F2.cert] := by decide +kernel
  refine ⟨F2.db, pk 4, s (2 ^ 63), [F2.cert], _, [pk 1], Reachable.init.runAll _, Prod.ext hret rfl, ?_,
    F2.cert, by simp, ?_⟩
  · rintro k ⟨row, hrow, e⟩
    have hr : F2.db.roots = [⟨keyText (pk 1), 6⟩] := by decide +kernel
    rw [hr, List.mem_singleton] at hrow
    subst hrow
    rw [keyText_inj e]
    simp
  · decide +kernel

/-- C08: the hypotheses hold for the demo database at an ordinary time. -/
example : Reachable Demo.db ∧ (s 10).secs.toNat < 2 ^ 63 := ⟨Demo.reachable, by decide⟩

/-- **C09 fails** for `issuer = target` (finding F14): a certificate is returned in which no trust was issued by the given
issuer. -/
theorem C09_from_selects_fails :
    ∃ (db : Db) (target issuer : PublicKey) (now : Dur) (cs : List Certificate) (db' : Db), Reachable db ∧
      TrustGraph.getAllCertsFrom target issuer now db = (.ok cs, db') ∧
      ∃ c ∈ cs, issuer ∉ Spec.issuers c.chain := by
  have hret : (TrustGraph.getAllCertsFrom (pk 4) (pk 4) (s 10) F2.db).1 = .ok [F2.cert] := by decide +kernel
  exact ⟨F2.db, pk 4, pk 4, s 10, [F2.cert], _, Reachable.init.runAll _, Prod.ext hret rfl, F2.cert,
    by simp, by decide +kernel⟩

/-- C09: through key 2 exactly two of the four certificates of key 4 remain. -/
example : (match (TrustGraph.getAllCertsFrom (pk 4) (pk 2) (s 10) Demo.db).1 with
    | .ok cs => cs.map Demo.keys
    | _ => []) = [[1, 2, 3, 4], [1, 2, 3, 3, 4]] ∧ pk 2 ≠ pk 4 := by decide +kernel

end TG
