/-
C135: exactly how many SQL statements each call executes.
-/
import Verif.Proofs.StatementsCalls
import Verif.Props.Statements

namespace TG
variable [Env]

/-- In `db` the call executes exactly `n` SQL statements: if these succeed it answers `a`, and if one of them fails it reports that the storage failed. -/
structure Spec.Costs {α : Type} (x : M Db TrustGraphError α) (db : Db) (n : Nat) (a : α) : Prop where
  done : ∃ db' : Db, ∀ fs, x { db with faults := List.replicate n false ++ fs } = (.ok a, { db' with faults := fs })
  stops : ∀ k < n, ∀ fs, (x { db with faults := List.replicate k false ++ true :: fs }).1 = .err .internalStorageError

omit [Env] in
theorem Executes.costs {α : Type} {x : M Db TrustGraphError α} {db db' : Db} {n : Nat} {a : α} (h : Executes x db n a db') : Spec.Costs x db n a :=
  ⟨⟨db', h.done⟩, h.stops⟩

omit [Env] in
/-- The number and the answer are determined. -/
theorem Spec.Costs.unique {α : Type} {x : M Db TrustGraphError α} {db : Db} {n m : Nat} {a b : α} (h : Spec.Costs x db n a) (h' : Spec.Costs x db m b) :
    n = m ∧ a = b := by
  have key : ∀ {n m : Nat} {a b : α}, Spec.Costs x db n a → Spec.Costs x db m b → m ≤ n := by
    intro n m a b h h'
    refine Nat.le_of_not_lt fun hl => ?_
    obtain ⟨db', hd⟩ := h.done
    have h1 := h'.stops n hl []
    rw [hd] at h1
    cases h1
  obtain rfl := Nat.le_antisymm (key h' h) (key h h')
  obtain ⟨d, hd⟩ := h.done
  obtain ⟨d', hd'⟩ := h'.done
  have := (hd []).symm.trans (hd' [])
  injection this with h1 _
  injection h1 with h1
  exact ⟨rfl, h1⟩

/-- **C135**, questions: the weight of a key costs one statement more than its certificates, and one more for each certificate; the weight from an issuer costs one more than the
certificates for each certificate that contains the issuer; the certificates from an issuer cost as much as all certificates. -/
theorem C135_questions {db : Db} (hr : Reachable db) (hn : db.relations.length + 16 < 2 ^ 32) {k : PublicKey} {now : Dur} {n : Nat} {cs : List Certificate}
    (h : Spec.Costs (TrustGraph.getAllCerts k now) db n cs) :
    (∃ w, Spec.Costs (TrustGraph.weight k now) db (1 + n + cs.length) w) ∧
    (∀ issuer, ∃ w, Spec.Costs (TrustGraph.weightFrom k issuer now) db (n + (cs.filter (fun c => ∃ t ∈ c.chain, t.issuedFor = issuer)).length) w) ∧
    ∀ issuer, ∃ cs', Spec.Costs (TrustGraph.getAllCertsFrom k issuer now) db n cs' := by
  have hh := hr.healthy
  have hx := Db.getAllCerts_executes hh k now
  obtain ⟨e, rfl⟩ := h.unique hx.costs
  rw [← e] at hx
  refine ⟨(Db.weight_executes hh hn hx).imp fun _ h => h.costs, fun issuer => ?_, fun issuer => ?_⟩
  · have hf : (db.certs k now).filter (fun c => ∃ t ∈ c.chain, t.issuedFor = issuer) = (db.certs k now).filter (fun c => c.chain.any (fun t => t.issuedFor == issuer)) :=
      List.filter_congr fun c _ => by rw [Bool.eq_iff_iff]; simp
    rw [hf]
    exact (Db.weightFrom_executes hh hn hx).imp fun _ h => h.costs
  · exact ⟨_, (show Executes (TrustGraph.getAllCertsFrom k issuer now) db n ((db.certs k now).filter (fun c => c.chain.any (fun t => t.issuedFor == issuer))) _ from
      hx.bind (m := 0) (.pure _)).costs⟩

/-- Nothing is known about the two keys that is as new. -/
def Spec.News (db : Db) (r : TrustRelation) : Prop := ∀ q, db.Stored q → q.SamePair r → q.issuedAt.total < r.issuedAt.total

theorem Spec.news_iff {db : Db} (hh : db.Healthy) {r : TrustRelation} : db.Newer r ↔ Spec.News db r := by
  rw [hh.newer_iff]
  exact ⟨fun h q hq hp => Dur.lt_iff.mp (h q hq hp.1 hp.2), fun h q hq h1 h2 => Dur.lt_iff.mpr (h q hq ⟨h1, h2⟩)⟩

/-- The same once the trusts that have expired by `now` are dropped. -/
def Spec.NewsAt (db : Db) (now : Dur) (r : TrustRelation) : Prop :=
  ∀ q, db.Stored q → (∀ a, q = .auth a → Spec.Live a.trust now) → q.SamePair r → q.issuedAt.total < r.issuedAt.total

theorem Spec.newsAt_iff {db : Db} (hh : db.Healthy) {now : Dur} {r : TrustRelation} : (db.collect now).Newer r ↔ Spec.NewsAt db now r := by
  rw [Spec.news_iff (hh.collect now)]
  exact ⟨fun h q hq hl => h q (Db.stored_collect now |>.mpr ⟨hq, hl⟩), fun h q hq => h q (Db.stored_collect now |>.mp hq).1 (Db.stored_collect now |>.mp hq).2⟩

open Classical in
/-- **C135**, updates: a trust costs what the weight of the issuer costs, then one statement to look at what is known about the two keys (unless the issuer's weight is too
low), and one more if the trust is stored.  A revocation costs one or two statements.  What does not verify costs none. -/
theorem C135_updates {db : Db} (hr : Reachable db) :
    (∀ (t : Trust) (a : PublicKey) (now : Dur) (n w y : Nat), t.verify a now = .ok () → Spec.Costs (TrustGraph.weight a now) db n w →
      y = (if a = t.issuedFor then w else w / 2) → db.relations.length + 16 < 2 ^ 32 →
      Spec.Costs (TrustGraph.addTrust t a now) db (n + if y = 0 then 0 else if Spec.NewsAt db now (.auth ⟨t, a⟩) then 2 else 1) y) ∧
    (∀ r : Revocation, r.verify = .ok () → Spec.Costs (TrustGraph.revoke r) db (if Spec.News db (.revocation r) then 2 else 1) ()) ∧
    (∀ k n, Spec.Costs (TrustGraph.setRoot k n) db 1 ()) ∧ (∀ k, ∃ rs, Spec.Costs (TrustGraph.getRevocations k) db 1 rs) ∧
    (∀ (t : Trust) (a : PublicKey) (now : Dur) (e : TrustError), t.verify a now = .err e → TrustGraph.addTrust t a now db = (.err (.trustVerificationError e), db)) ∧
    (∀ (r : Revocation) (e : RevokeError), r.verify = .err e → TrustGraph.revoke r db = (.err (.revokeCheckError e), db)) := by
  have hh := hr.healthy
  refine ⟨?_, ?_, ?_, ?_, ?_, ?_⟩
  · rintro t a now n w y hv hw rfl hn
    obtain ⟨w', hx⟩ := Db.weight_executes hh hn (Db.getAllCerts_executes hh a now)
    obtain ⟨e, rfl⟩ := hw.unique hx.costs
    rw [← e] at hx
    have := (Db.addTrust_executes hh hv hx).costs
    simpa only [Spec.newsAt_iff hh] using this
  · intro r hv
    have := (Db.revoke_executes hh hv).costs
    simpa only [Spec.news_iff hh] using this
  · intro k n
    exact (show Executes (TrustGraph.setRoot k n) db 1 () { db with roots := db.roots ++ [⟨keyText k, getWeightFactor n⟩] } from .stmt fun fs => rfl).costs
  · intro k
    exact ⟨_, ((Db.counts hh).revs k).costs⟩
  · intro t a now e hv
    unfold TrustGraph.addTrust
    rw [hv]
    rfl
  · intro r e hv
    unfold TrustGraph.revoke
    rw [hv]
    rfl

end TG
