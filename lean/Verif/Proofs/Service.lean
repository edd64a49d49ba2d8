/-
Helper lemmas about the service calls.
-/
import Verif.Spec.Service
import Verif.Proofs.Ops
import Verif.Props.PeerIds

namespace TG
open TG.Service
variable [Env]

section
variable {α β : Type}

omit [Env] in
theorem status_into (n : α) (x : M Db ServiceError α) (db : Db) :
    status (into n x) db = (match (x db).1 with
      | .ok _ => .ok (true, none)
      | .err e => .ok (false, some e)
      | .panic => .panic
      | .diverge => .diverge, (x db).2) := by
  unfold status
  rw [M.bind_run]
  unfold into
  rcases x db with ⟨o, s⟩
  cases o <;> rfl

omit [Env] in
theorem status_into_snd (n : α) (x : M Db ServiceError α) (db : Db) : (status (into n x) db).2 = (x db).2 := by
  rw [status_into]

omit [Env] in
theorem lift_bind_run {ε : Type} (o : Outcome ε α) (f : α → M Db ε β) (db : Db) :
    (M.lift o >>= f) db = match o with
      | .ok a => f a db
      | .err e => (.err e, db)
      | .panic => (.panic, db)
      | .diverge => (.diverge, db) := by
  cases o <;> rfl

end

omit [Env] in
theorem checkTimestamp_iff (cp : CallParams) (n : Nat) :
    checkTimestampTetraplets cp n = .ok () ↔ cp.FromHostClock n := by
  unfold checkTimestampTetraplets CallParams.FromHostClock trustedTimestamp
  cases h : cp.tetraplets[n]? with
  | none => simp
  | some ts =>
    cases ts with
    | nil => simp
    | cons t rest =>
      simp only [List.head?_cons, Option.some.injEq, List.cons.injEq]
      constructor
      · intro h
        split at h
        · next h' =>
          obtain ⟨h1, h2⟩ := h'
          obtain ⟨h3, h4⟩ := Prod.mk.inj h1
          refine ⟨rest, ?_, rfl⟩
          cases t
          simp only at h2 h3 h4
          rw [h2, ← h3, ← h4]
        · cases h
      · rintro ⟨r, h, -⟩
        rw [h, if_pos ⟨rfl, rfl⟩]

omit [Env] in
theorem checkTimestamp_err {cp : CallParams} {n : Nat} (h : ¬ cp.FromHostClock n) :
    checkTimestampTetraplets cp n = .err .invalidTimestampTetraplet := by
  have h' : checkTimestampTetraplets cp n ≠ .ok () := fun e => h ((checkTimestamp_iff cp n).mp e)
  revert h'
  unfold checkTimestampTetraplets
  split
  · simp
  · split
    · simp
    · split <;> simp

/-- Whatever a service call does to the database, it does through at most one call of the library, whose time argument is the
timestamp of the service call. -/
theorem Call.run_effect (c : Call) (cp : CallParams) (db : Db) :
    (c.run cp db).2 = db ∨
      ∃ op : Op, (c.run cp db).2 = op.run db ∧ (op.offers = [] ∨ c.timestamp.isSome) ∧
        (∀ now, op.time = some now → ∃ t, c.timestamp = some t ∧ now = .ofSecs t) ∧
        (∀ pk n, op = .setRoot pk n → cp.serviceCreatorPeerId = cp.initPeerId ∧
          ∃ p m, c = .setRoot p m ∧ n = m.toNat ∧ extractPublicKey p = .ok pk) := by
  cases c with
  | setRoot p n =>
    show (status (Service.setRoot cp p n) db).2 = db ∨ _
    by_cases ho : cp.serviceCreatorPeerId = cp.initPeerId
    · unfold Service.setRoot
      rw [if_pos ho]
      rw [show (Call.run (.setRoot p n) cp db).2 = (status (Service.setRoot cp p n) db).2 from rfl]
      unfold Service.setRoot
      rw [if_pos ho, status_into_snd, lift_bind_run]
      split
      · next pk hpk =>
        right
        refine ⟨.setRoot pk n.toNat, rfl, .inl rfl, ?_, ?_⟩
        · intro now h; cases h
        · intro pk' m h; cases h; exact ⟨ho, p, n, rfl, rfl, hpk⟩
      all_goals exact .inl rfl
    · left
      unfold Service.setRoot
      rw [if_neg ho]
      rfl
  | insertCertRaw ct t =>
    rw [show (Call.run (.insertCertRaw ct t) cp db).2 = (status (Service.insertCertRaw cp ct t) db).2 from rfl]
    unfold Service.insertCertRaw
    rw [status_into_snd, lift_bind_run]
    split
    · next c hc =>
      right
      refine ⟨.add c (.ofSecs t), rfl, .inr rfl, ?_, ?_⟩
      · intro now h; cases h; exact ⟨t, rfl, rfl⟩
      · intro pk' m h; cases h
    all_goals exact .inl rfl
  | insertCert ct t =>
    rw [show (Call.run (.insertCert ct t) cp db).2 = (status (Service.insertCert cp ct t) db).2 from rfl]
    unfold Service.insertCert
    rw [status_into_snd, lift_bind_run]
    split
    · next c hc =>
      right
      refine ⟨.add c (.ofSecs t), rfl, .inr rfl, ?_, ?_⟩
      · intro now h; cases h; exact ⟨t, rfl, rfl⟩
      · intro pk' m h; cases h
    all_goals exact .inl rfl
  | getAllCerts p t =>
    rw [show (Call.run (.getAllCerts p t) cp db).2 = (status (Service.getAllCerts cp p t) db).2 from rfl]
    unfold Service.getAllCerts getCerts
    rw [status_into_snd, lift_bind_run]
    split
    · rw [lift_bind_run]
      split
      · next pk hpk =>
        right
        refine ⟨.getAllCerts pk (.ofSecs t), M.bind_pure_snd _ _ _, .inr rfl, ?_, ?_⟩
        · intro now h; cases h; exact ⟨t, rfl, rfl⟩
        · intro pk' m h; cases h
      all_goals exact .inl rfl
    all_goals exact .inl rfl
  | getAllCertsFrom p i t =>
    rw [show (Call.run (.getAllCertsFrom p i t) cp db).2 = (status (Service.getAllCertsFrom cp p i t) db).2 from rfl]
    unfold Service.getAllCertsFrom getCertsFrom
    rw [status_into_snd, lift_bind_run]
    split
    · rw [lift_bind_run]
      split
      · next pk hpk =>
        rw [lift_bind_run]
        split
        · next ik hik =>
          right
          refine ⟨.getAllCertsFrom pk ik (.ofSecs t), M.bind_pure_snd _ _ _, .inr rfl, ?_, ?_⟩
          · intro now h; cases h; exact ⟨t, rfl, rfl⟩
          · intro pk' m h; cases h
        all_goals exact .inl rfl
      all_goals exact .inl rfl
    all_goals exact .inl rfl
  | getHostCerts t =>
    rw [show (Call.run (.getHostCerts t) cp db).2 = (status (Service.getHostCerts cp t) db).2 from rfl]
    unfold Service.getHostCerts getCerts
    rw [status_into_snd, lift_bind_run]
    split
    · rw [lift_bind_run]
      split
      · next pk hpk =>
        right
        refine ⟨.getAllCerts pk (.ofSecs t), M.bind_pure_snd _ _ _, .inr rfl, ?_, ?_⟩
        · intro now h; cases h; exact ⟨t, rfl, rfl⟩
        · intro pk' m h; cases h
      all_goals exact .inl rfl
    all_goals exact .inl rfl
  | getHostCertsFrom i t =>
    rw [show (Call.run (.getHostCertsFrom i t) cp db).2 = (status (Service.getHostCertsFrom cp i t) db).2 from rfl]
    unfold Service.getHostCertsFrom getCertsFrom
    rw [status_into_snd, lift_bind_run]
    split
    · rw [lift_bind_run]
      split
      · next pk hpk =>
        rw [lift_bind_run]
        split
        · next ik hik =>
          right
          refine ⟨.getAllCertsFrom pk ik (.ofSecs t), M.bind_pure_snd _ _ _, .inr rfl, ?_, ?_⟩
          · intro now h; cases h; exact ⟨t, rfl, rfl⟩
          · intro pk' m h; cases h
        all_goals exact .inl rfl
      all_goals exact .inl rfl
    all_goals exact .inl rfl
  | getWeight p t =>
    rw [show (Call.run (.getWeight p t) cp db).2 = (status (Service.getWeight cp p t) db).2 from rfl]
    unfold Service.getWeight
    rw [status_into_snd, lift_bind_run]
    split
    · rw [lift_bind_run]
      split
      · next pk hpk =>
        right
        refine ⟨.weight pk (.ofSecs t), M.bind_pure_snd _ _ _, .inr rfl, ?_, ?_⟩
        · intro now h; cases h; exact ⟨t, rfl, rfl⟩
        · intro pk' m h; cases h
      all_goals exact .inl rfl
    all_goals exact .inl rfl
  | getWeightFrom p i t =>
    rw [show (Call.run (.getWeightFrom p i t) cp db).2 = (status (Service.getWeightFrom cp p i t) db).2 from rfl]
    unfold Service.getWeightFrom
    rw [status_into_snd, lift_bind_run]
    split
    · rw [lift_bind_run]
      split
      · next pk hpk =>
        rw [lift_bind_run]
        split
        · next ik hik =>
          right
          refine ⟨.weightFrom pk ik (.ofSecs t), M.bind_pure_snd _ _ _, .inr rfl, ?_, ?_⟩
          · intro now h; cases h; exact ⟨t, rfl, rfl⟩
          · intro pk' m h; cases h
        all_goals exact .inl rfl
      all_goals exact .inl rfl
    all_goals exact .inl rfl
  | getTrustBytes p e i =>
    left
    rw [show (Call.run (.getTrustBytes p e i) cp db).2 = (status (Service.getTrustBytes cp p e i) db).2 from rfl]
    unfold Service.getTrustBytes
    rw [status_into_snd, lift_bind_run]
    split <;> rfl
  | issueTrust p e i b =>
    left
    rw [show (Call.run (.issueTrust p e i b) cp db).2 = (status (Service.issueTrust cp p e i b) db).2 from rfl]
    unfold Service.issueTrust
    rw [status_into_snd, lift_bind_run]
    split <;> rfl
  | verifyTrust t i ts =>
    left
    rw [show (Call.run (.verifyTrust t i ts) cp db).2 = (status (Service.verifyTrust cp t i ts) db).2 from rfl]
    unfold Service.verifyTrust
    rw [status_into_snd, lift_bind_run]
    split
    · rw [lift_bind_run]
      split
      · rw [lift_bind_run]
        split <;> rfl
      all_goals rfl
    all_goals rfl
  | addTrust t i ts =>
    rw [show (Call.run (.addTrust t i ts) cp db).2 = (status (Service.addTrust cp t i ts) db).2 from rfl]
    unfold Service.addTrust
    rw [status_into_snd, lift_bind_run]
    split
    · next pk hpk =>
      rw [lift_bind_run]
      split
      · split
        · exact .inl rfl
        · rw [lift_bind_run]
          split
          · next tr htr =>
            right
            refine ⟨.addTrust tr pk (.ofSecs ts), rfl, .inr rfl, ?_, ?_⟩
            · intro now h; cases h; exact ⟨ts, rfl, rfl⟩
            · intro pk' m h; cases h
          all_goals exact .inl rfl
      all_goals exact .inl rfl
    all_goals exact .inl rfl
  | getRevocationBytes p r =>
    left
    rw [show (Call.run (.getRevocationBytes p r) cp db).2 = (status (Service.getRevocationBytes cp p r) db).2 from rfl]
    unfold Service.getRevocationBytes
    rw [status_into_snd, lift_bind_run]
    split <;> rfl
  | issueRevocation b p r s =>
    left
    rw [show (Call.run (.issueRevocation b p r s) cp db).2 = (status (Service.issueRevocation cp b p r s) db).2 from rfl]
    unfold Service.issueRevocation
    rw [status_into_snd, lift_bind_run]
    split
    · rw [lift_bind_run]
      split <;> rfl
    all_goals rfl
  | revoke r ts =>
    rw [show (Call.run (.revoke r ts) cp db).2 = (status (Service.revoke cp r ts) db).2 from rfl]
    unfold Service.revoke
    rw [status_into_snd, lift_bind_run]
    split
    · split
      · exact .inl rfl
      · rw [lift_bind_run]
        split
        · next rv hrv =>
          right
          refine ⟨.revoke rv, rfl, .inr rfl, ?_, ?_⟩
          · intro now h; cases h
          · intro pk' m h; cases h
        all_goals exact .inl rfl
    all_goals exact .inl rfl
  | exportRevocations p =>
    rw [show (Call.run (.exportRevocations p) cp db).2 = (status (Service.exportRevocations cp p) db).2 from rfl]
    unfold Service.exportRevocations
    rw [status_into_snd, lift_bind_run]
    split
    · next pk hpk =>
      right
      refine ⟨.getRevocations pk, M.bind_pure_snd _ _ _, .inl rfl, ?_, ?_⟩
      · intro now h; cases h
      · intro pk' m h; cases h
    all_goals exact .inl rfl

/-- Service calls lead from reachable databases to reachable databases. -/
theorem Call.run_reachable (c : Call) (cp : CallParams) {db : Db} (h : Reachable db) : Reachable (c.run cp db).2 := by
  rcases c.run_effect cp db with e | ⟨op, e, -, -, -⟩ <;> rw [e]
  · exact h
  · exact h.step op

theorem extractPublicKey_cases (p : Str) : (∃ pk, extractPublicKey p = .ok pk) ∨ ∃ e, extractPublicKey p = .err e := by
  unfold extractPublicKey PublicKey.ofPeerId
  split
  · exact .inr ⟨_, rfl⟩
  · split
    · cases PublicKey.ofProtobuf _ with
      | none => exact .inr ⟨_, rfl⟩
      | some pk => exact .inl ⟨_, rfl⟩
    · exact .inr ⟨_, rfl⟩

/-- A refused call. -/
theorem Call.refused_of_err {α : Type} {c : Call} {cp : CallParams} {db : Db} {n : α} {x : M Db ServiceError α}
    {e : ServiceError} (hc : c.run cp = status (into n x)) (h : x db = (.err e, db)) : c.Refused cp db :=
  ⟨e, by rw [hc, status_into, h]⟩

end TG
