/-
Properties C55–C59, C62, C64, C74: the calls of the service.

`cp : CallParams` is any call context; `db` any database (reachable ones where that matters), with any schedule of SQL faults.
-/
import Verif.Proofs.Service
import Verif.Proofs.NoTrap
import Verif.Props.Demo

namespace TG
open TG.Service
variable [Env]

/-! ### Service calls never leave the reachable databases -/

/-- Everything proved about reachable databases holds for the database of a service, whatever calls it received. -/
theorem Call.runAll_reachable (cs : List (Call × CallParams)) {db : Db} (h : Reachable db) :
    Reachable (cs.foldl (fun db c => (c.1.run c.2 db).2) db) := by
  induction cs generalizing db with
  | nil => exact h
  | cons c cs ih => exact ih (c.1.run_reachable c.2 h)

/-! ### C55: roots -/

/-- **C55**: `set_root` called by anybody but the creator of the service is refused. -/
theorem C55_only_owner (cp : CallParams) (p : Str) (n : UInt32) (db : Db) (h : cp.initPeerId ≠ cp.serviceCreatorPeerId) :
    (Call.setRoot p n).run cp db = (.ok (false, some .notOwner), db) := by
  show status (Service.setRoot cp p n) db = _
  unfold Service.setRoot
  rw [if_neg (fun e => h e.symm)]
  rfl

/-- **C55**, over all calls: only `set_root`, made by the creator, changes the roots. -/
theorem C55_roots_change (c : Call) (cp : CallParams) (db : Db) (h : (c.run cp db).2.roots ≠ db.roots) :
    cp.initPeerId = cp.serviceCreatorPeerId ∧ ∃ p n, c = .setRoot p n := by
  rcases c.run_effect cp db with e | ⟨op, e, -, -, hr⟩
  · rw [e] at h; exact absurd rfl h
  · have hs : ∃ pk n, op = .setRoot pk n := by
      by_contra hn
      push Not at hn
      apply h
      rw [e]
      exact op.run_steps (R := fun a b : Db => b.roots = a.roots)
        ⟨fun _ => rfl, fun _ _ _ h1 h2 => h2.trans h1, fun _ _ => rfl⟩
        (fun _ _ _ => rfl) (fun _ _ _ _ _ _ => rfl) (fun pk n e' => absurd e' (hn pk n)) db
    obtain ⟨pk, n, e'⟩ := hs
    obtain ⟨h1, p, m, h2, -⟩ := hr pk n e'
    exact ⟨h1.symm, p, m, h2⟩

/-! ### C56: timestamps -/

/-- **C56**: every call with a timestamp, other than `insert_cert`, `insert_cert_raw` and `get_weight_from`, is refused unless the
timestamp comes from the host's clock. -/
theorem C56_foreign_time_refused (c : Call) (cp : CallParams) (db : Db) (n : Nat) (hn : c.timestampArg = some n)
    (hu : ¬ c.Unchecked) (h : ¬ cp.FromHostClock n) : c.Refused cp db := by
  have he := checkTimestamp_err h
  cases c with
  | getAllCerts p t =>
    cases hn
    exact Call.refused_of_err (n := []) rfl (by rw [he, lift_bind_run])
  | getAllCertsFrom p i t =>
    cases hn
    exact Call.refused_of_err (n := []) rfl (by rw [he, lift_bind_run])
  | getHostCerts t =>
    cases hn
    exact Call.refused_of_err (n := []) rfl (by rw [he, lift_bind_run])
  | getHostCertsFrom i t =>
    cases hn
    exact Call.refused_of_err (n := []) rfl (by rw [he, lift_bind_run])
  | getWeight p t =>
    cases hn
    exact Call.refused_of_err (n := (0, [])) rfl (by rw [he, lift_bind_run])
  | verifyTrust t i ts =>
    cases hn
    exact Call.refused_of_err (n := ()) rfl (by rw [he, lift_bind_run])
  | addTrust t i ts =>
    cases hn
    rcases extractPublicKey_cases i with ⟨pk, hk⟩ | ⟨e, hk⟩
    · exact Call.refused_of_err (n := 0) rfl (by rw [hk, lift_bind_run]; dsimp only; rw [he, lift_bind_run])
    · exact Call.refused_of_err (n := 0) rfl (by rw [hk, lift_bind_run])
  | revoke r ts =>
    cases hn
    exact Call.refused_of_err (n := ()) rfl (by rw [he, lift_bind_run])
  | insertCertRaw => exact absurd trivial hu
  | insertCert => exact absurd trivial hu
  | getWeightFrom => exact absurd trivial hu
  | _ => cases hn

/-- The same, the other way round. -/
theorem C56_only_host_time (c : Call) (cp : CallParams) (db : Db) (n : Nat) (hn : c.timestampArg = some n)
    (hu : ¬ c.Unchecked) (h : c.Succeeds cp db ∨ (c.run cp db).2 ≠ db) : cp.FromHostClock n := by
  by_contra hc
  obtain ⟨e, he⟩ := C56_foreign_time_refused c cp db n hn hu hc
  unfold Call.Succeeds at h
  rw [he] at h
  rcases h with h | h
  · simp at h
  · exact h rfl

/-! ### C57: the timestamp of get_weight_from -/

/-- **C57**: what is intended. -/
def C57_statement : Prop :=
  ∀ (cp : CallParams) (p i : Str) (t : UInt64) (db : Db) (pk ik : PublicKey), extractPublicKey p = .ok pk →
    extractPublicKey i = .ok ik → Reachable db → db.NoFaults → db.relations.length + 16 < 2 ^ 32 →
    ((Call.getWeightFrom p i t).Succeeds cp db ↔ cp.FromHostClock 2)

/-- **C57**, what holds: `get_weight_from` looks at the origin of argument 1, the issuer, instead of the timestamp. -/
theorem C57_checks_the_issuer_partial (cp : CallParams) (p i : Str) (t : UInt64) (db : Db) (pk ik : PublicKey)
    (hp : extractPublicKey p = .ok pk) (hi : extractPublicKey i = .ok ik) (hr : Reachable db) (hf : db.NoFaults)
    (hb : db.Bounded 0) : (Call.getWeightFrom p i t).Succeeds cp db ↔ cp.FromHostClock 1 := by
  rw [← checkTimestamp_iff]
  show (status (Service.getWeightFrom cp p i t) db).1 = _ ↔ _
  unfold Service.getWeightFrom
  rw [status_into, lift_bind_run]
  obtain ⟨w, hw⟩ := Db.weightFrom_returns hr.healthy hf hb pk ik (.ofSecs t)
  cases hc : checkTimestampTetraplets cp 1 with
  | ok u =>
    dsimp only
    rw [hp, lift_bind_run]
    dsimp only
    rw [hi, lift_bind_run]
    dsimp only
    have : tg (TrustGraph.weightFrom pk ik (.ofSecs t)) db = (.ok w, db.collect (.ofSecs t)) := by
      unfold tg M.mapErr; rw [hw]; rfl
    rw [M.bind_run_ok this]
    simp
  | err e => simp
  | panic => simp
  | diverge => simp

/-! ### C58: foreign time expires nothing -/

/-- **C58**: what is intended: a call whose timestamp does not come from the host's clock keeps every trust that is live at the host's
time. -/
def C58_statement : Prop :=
  ∀ (c : Call) (cp : CallParams) (db : Db) (hostTime : Dur), Reachable db →
    (¬ ∃ n, c.timestampArg = some n ∧ cp.FromHostClock n) →
    ∀ by' t, (db.snapshot hostTime).trusted by' t → ((c.run cp db).2.snapshot hostTime).trusted by' t

/-- **C58**, what holds: a call that changes any stored relation has its timestamp from the host's clock, except for
`insert_cert`, `insert_cert_raw` and `get_weight_from`. -/
theorem C58_only_host_time_partial (c : Call) (cp : CallParams) (db : Db) (hu : ¬ c.Unchecked)
    (h : (c.run cp db).2.relations ≠ db.relations) : ∃ n, c.timestampArg = some n ∧ cp.FromHostClock n := by
  cases hn : c.timestampArg with
  | some n => exact ⟨n, rfl, C56_only_host_time c cp db n hn hu (.inr fun e => h (by rw [e]))⟩
  | none =>
    refine absurd ?_ h
    have hq : Quiet (fun a b : Db => b.relations = a.relations) :=
      ⟨fun _ => rfl, fun _ _ _ h1 h2 => h2.trans h1, fun _ _ => rfl⟩
    rcases c.run_effect cp db with e | ⟨op, e, ho, ht, -⟩
    · rw [e]
    · rw [e]
      have hts : c.timestamp = none := by cases c <;> first | rfl | cases hn
      refine op.run_steps hq (fun now hnow => ?_) (fun r hr => ?_) (fun _ _ _ _ => rfl) db
      · obtain ⟨t, h1, -⟩ := ht now hnow
        rw [hts] at h1
        cases h1
      · rcases ho with ho | ho
        · rw [ho] at hr; cases hr
        · rw [hts] at ho; cases ho

/-! ### C59: the future -/

/-- **C59** for trusts. -/
theorem C59_future_trust_refused (t : TrustDto) (i : Str) (ts : UInt64) (cp : CallParams) (db : Db) (h : ts < t.issuedAt) :
    (Call.addTrust t i ts).Refused cp db := by
  by_cases hc : cp.FromHostClock 2
  · rcases extractPublicKey_cases i with ⟨pk, hk⟩ | ⟨e, hk⟩
    · refine Call.refused_of_err (n := 0) rfl (e := .invalidTimestamp) ?_
      rw [hk, lift_bind_run]
      dsimp only
      rw [(checkTimestamp_iff cp 2).mpr hc, lift_bind_run]
      dsimp only
      rw [if_pos (UInt64.lt_iff_toNat_lt.mp h)]
      rfl
    · exact Call.refused_of_err (n := 0) rfl (by rw [hk, lift_bind_run])
  · exact C56_foreign_time_refused _ _ _ 2 rfl id hc

/-- **C59** for revocations. -/
theorem C59_future_revocation_refused (r : RevocationDto) (ts : UInt64) (cp : CallParams) (db : Db) (h : ts < r.revokedAt) :
    (Call.revoke r ts).Refused cp db := by
  by_cases hc : cp.FromHostClock 1
  · refine Call.refused_of_err (n := ()) rfl (e := .invalidTimestamp) ?_
    rw [(checkTimestamp_iff cp 1).mpr hc, lift_bind_run]
    dsimp only
    rw [if_pos (UInt64.lt_iff_toNat_lt.mp h)]
    rfl
  · exact C56_foreign_time_refused _ _ _ 1 rfl id hc

/-! ### C62: result records -/

/-- The record reports success without an error, or failure with an error and the neutral payload. -/
def Res.WellFormed {α : Type} (neutral : α) (r : Res α) : Prop :=
  (r.success = true ∧ r.error = none) ∨ (r.success = false ∧ r.error ≠ none ∧ r.payload = neutral)

omit [Env] in
theorem into_wellFormed {α : Type} (n : α) (x : M Db ServiceError α) (db db' : Db) (r : Res α)
    (h : into n x db = (.ok r, db')) :
    r.WellFormed n ∧ (r.success = true ↔ (x db).1 = .ok r.payload) := by
  unfold into at h
  have h := (Prod.mk.inj h).1
  cases hx : (x db).1 with
  | ok a => rw [hx] at h; cases h; exact ⟨.inl ⟨rfl, rfl⟩, by simp⟩
  | err e => rw [hx] at h; cases h; exact ⟨.inr ⟨rfl, by simp, rfl⟩, by simp⟩
  | panic => rw [hx] at h; cases h
  | diverge => rw [hx] at h; cases h

/-- **C62**: on failure the error is set and weights are 0, lists empty, records the default ones; on success there is no error. -/
theorem C62_result_records (cp : CallParams) (db db' : Db) :
    (∀ p n r, Service.setRoot cp p n db = (.ok r, db') → r.WellFormed ()) ∧
    (∀ c t r, Service.insertCertRaw cp c t db = (.ok r, db') → r.WellFormed ()) ∧
    (∀ c t r, Service.insertCert cp c t db = (.ok r, db') → r.WellFormed ()) ∧
    (∀ p t r, Service.getAllCerts cp p t db = (.ok r, db') → r.WellFormed []) ∧
    (∀ p i t r, Service.getAllCertsFrom cp p i t db = (.ok r, db') → r.WellFormed []) ∧
    (∀ t r, Service.getHostCerts cp t db = (.ok r, db') → r.WellFormed []) ∧
    (∀ i t r, Service.getHostCertsFrom cp i t db = (.ok r, db') → r.WellFormed []) ∧
    (∀ p t r, Service.getWeight cp p t db = (.ok r, db') → r.WellFormed (0, [])) ∧
    (∀ p i t r, Service.getWeightFrom cp p i t db = (.ok r, db') → r.WellFormed (0, [])) ∧
    (∀ p e i r, Service.getTrustBytes cp p e i db = (.ok r, db') → r.WellFormed []) ∧
    (∀ p e i b r, Service.issueTrust cp p e i b db = (.ok r, db') → r.WellFormed ⟨[], 0, [], [], 0⟩) ∧
    (∀ t i ts r, Service.verifyTrust cp t i ts db = (.ok r, db') → r.WellFormed ()) ∧
    (∀ t i ts r, Service.addTrust cp t i ts db = (.ok r, db') → r.WellFormed 0) ∧
    (∀ p a r, Service.getRevocationBytes cp p a db = (.ok r, db') → r.WellFormed []) ∧
    (∀ b p a s r, Service.issueRevocation cp b p a s db = (.ok r, db') → r.WellFormed ⟨[], 0, [], [], []⟩) ∧
    (∀ v ts r, Service.revoke cp v ts db = (.ok r, db') → r.WellFormed ()) ∧
    (∀ p r, Service.exportRevocations cp p db = (.ok r, db') → r.WellFormed []) := by
  refine ⟨?_, ?_, ?_, ?_, ?_, ?_, ?_, ?_, ?_, ?_, ?_, ?_, ?_, ?_, ?_, ?_, ?_⟩
  · intro p n r h
    unfold Service.setRoot at h
    split at h
    · exact (into_wellFormed _ _ _ _ _ h).1
    · cases h; exact .inr ⟨rfl, by simp, rfl⟩
  all_goals intros; rename_i h; exact (into_wellFormed _ _ _ _ _ h).1

/-- **C62**, for all calls at once: `success` is false exactly if there is an error. -/
theorem C62_success_iff (c : Call) (cp : CallParams) (db db' : Db) (ok : Bool) (e : Option ServiceError)
    (h : c.run cp db = (.ok (ok, e), db')) : ok = true ↔ e = none := by
  have key : ∀ {α : Type} (n : α) (x : M Db ServiceError α), status (into n x) db = (.ok (ok, e), db') → (ok = true ↔ e = none) := by
    intro α n x h
    rw [status_into] at h
    have h := (Prod.mk.inj h).1
    cases hx : (x db).1 <;> rw [hx] at h <;> cases h <;> simp
  cases c with
  | setRoot p n =>
    change status (Service.setRoot cp p n) db = _ at h
    unfold Service.setRoot at h
    split at h
    · exact key _ _ h
    · cases h; simp
  | _ => exact key _ _ h

/-! ### C64: the certificates of the host -/

/-- **C64**: with timestamps from the host's clock in both calls. -/
theorem C64_host_certs (cp cp' : CallParams) (t : UInt64) (db : Db) (h : cp.FromHostClock 0) (h' : cp'.FromHostClock 1) :
    Service.getHostCerts cp t db = Service.getAllCerts cp' cp.hostId t db := by
  unfold Service.getHostCerts Service.getAllCerts
  rw [(checkTimestamp_iff cp 0).mpr h, (checkTimestamp_iff cp' 1).mpr h']

theorem C64_host_certs_from (cp cp' : CallParams) (i : Str) (t : UInt64) (db : Db) (h : cp.FromHostClock 1)
    (h' : cp'.FromHostClock 2) : Service.getHostCertsFrom cp i t db = Service.getAllCertsFrom cp' cp.hostId i t db := by
  unfold Service.getHostCertsFrom Service.getAllCertsFrom
  rw [(checkTimestamp_iff cp 1).mpr h, (checkTimestamp_iff cp' 2).mpr h']

/-! ### C74: no traps -/

/-- How many relations a call can add to the database. -/
def Call.size : Call → Nat
  | .insertCert c _ => c.chain.length
  | _ => 0

theorem Dto.keyOfPeerId_noTrap (p : Str) : (Dto.keyOfPeerId p).NoTrap := by
  unfold Dto.keyOfPeerId PublicKey.ofPeerId
  split
  · exact ⟨by simp, by simp⟩
  · split
    · cases PublicKey.ofProtobuf _ <;> exact ⟨by simp [Outcome.ofOption, Outcome.mapErr], by simp [Outcome.ofOption, Outcome.mapErr]⟩
    · exact ⟨by simp [Outcome.mapErr], by simp [Outcome.mapErr]⟩

omit [Env] in
theorem Outcome.NoTrap.bind {ε α β : Type} {o : Outcome ε α} {f : α → Outcome ε β} (h : o.NoTrap) (hf : ∀ a, (f a).NoTrap) :
    (o >>= f).NoTrap := by
  cases o with
  | ok a => exact hf a
  | err e => exact ⟨by simp, by simp⟩
  | panic => exact absurd rfl h.1
  | diverge => exact absurd rfl h.2

omit [Env] in
theorem Outcome.NoTrap.mapErr {ε ε' α : Type} {o : Outcome ε α} (f : ε → ε') (h : o.NoTrap) : (o.mapErr f).NoTrap := by
  cases o with
  | ok a => exact ⟨by simp, by simp⟩
  | err e => exact ⟨by simp, by simp⟩
  | panic => exact absurd rfl h.1
  | diverge => exact absurd rfl h.2

omit [Env] in
theorem Outcome.NoTrap.ok {ε α : Type} (a : α) : (Outcome.ok a : Outcome ε α).NoTrap := ⟨by simp, by simp⟩

omit [Env] in
theorem Outcome.NoTrap.err {ε α : Type} (e : ε) : (Outcome.err e : Outcome ε α).NoTrap := ⟨by simp, by simp⟩

theorem Dto.readSignature_noTrap (s t : Str) : (Dto.readSignature s t).NoTrap := by
  unfold Dto.readSignature
  refine .bind ?_ fun _ => .bind (.mapErr _ ?_) fun _ => .ok _
  · cases Base58.decode s
    · exact .err _
    · exact .ok _
  · unfold KeyFormat.fromStr
    repeat' split
    all_goals first | exact .ok _ | exact .err _

theorem Dto.toTrust_noTrap (t : TrustDto) : (Dto.toTrust t).NoTrap :=
  .bind (Dto.keyOfPeerId_noTrap _) fun _ => .bind (Dto.readSignature_noTrap _ _) fun _ => .ok _

theorem Dto.toRevocation_noTrap (r : RevocationDto) : (Dto.toRevocation r).NoTrap :=
  .bind (Dto.keyOfPeerId_noTrap _) fun _ => .bind (Dto.keyOfPeerId_noTrap _) fun _ =>
    .bind (Dto.readSignature_noTrap _ _) fun _ => .ok _

theorem Dto.collect_noTrap (ts : List TrustDto) :
    (Dto.collect Dto.toTrust ts).NoTrap ∧ ∀ l, Dto.collect Dto.toTrust ts = .ok l → l.length = ts.length := by
  induction ts with
  | nil => exact ⟨.ok _, fun l h => by cases h; rfl⟩
  | cons t ts ih =>
    refine ⟨.bind (Dto.toTrust_noTrap t) fun _ => .bind ih.1 fun _ => .ok _, fun l h => ?_⟩
    unfold Dto.collect at h
    cases ht : Dto.toTrust t with
    | ok t' =>
      cases hts : Dto.collect Dto.toTrust ts with
      | ok ts' =>
        rw [ht, hts] at h
        cases h
        simp [ih.2 _ hts]
      | _ => rw [ht, hts] at h; cases h
    | _ => rw [ht] at h; cases h

theorem extractPublicKey_noTrap (p : Str) : (extractPublicKey p).NoTrap := by
  rcases extractPublicKey_cases p with ⟨pk, h⟩ | ⟨e, h⟩ <;> rw [h]
  · exact .ok _
  · exact .err _

omit [Env] in
theorem checkTimestamp_noTrap (cp : CallParams) (n : Nat) : (checkTimestampTetraplets cp n).NoTrap := by
  by_cases h : cp.FromHostClock n
  · rw [(checkTimestamp_iff cp n).mpr h]; exact .ok _
  · rw [checkTimestamp_err h]; exact .err _

/-- The call returns a result record. -/
def Call.Answers (c : Call) (cp : CallParams) (db : Db) : Prop := ∃ ok e, (c.run cp db).1 = .ok (ok, e)

/-- The part of a call after reading its arguments. -/
def Quietly {α : Type} (db : Db) (x : M Db ServiceError α) : Prop := (x db).1.NoTrap

section
variable {α β : Type} {db : Db}
omit [Env]

theorem Quietly.lift {o : Outcome ServiceError α} {f : α → M Db ServiceError β} (h : o.NoTrap) (hf : ∀ a, o = .ok a → Quietly db (f a)) :
    Quietly db (M.lift o >>= f) := by
  unfold Quietly
  rw [lift_bind_run]
  cases o with
  | ok a => exact hf a rfl
  | err e => exact .err _
  | panic => exact absurd rfl h.1
  | diverge => exact absurd rfl h.2

theorem Quietly.lift' {o : Outcome ServiceError α} (h : o.NoTrap) : Quietly db (M.lift o) := h

theorem Quietly.pure (a : α) : Quietly db (Pure.pure a) := .ok a

theorem Quietly.tg {x : M Db TrustGraphError α} (h : (x db).1.NoTrap) : Quietly db (Service.tg x) := h.mapErr _

theorem Quietly.tg_pure {x : M Db TrustGraphError α} {f : α → β} (h : (x db).1.NoTrap) :
    Quietly db (Service.tg x >>= fun a => Pure.pure (f a)) := by
  unfold Quietly
  rw [M.bind_run]
  unfold Service.tg M.mapErr
  rcases hx : x db with ⟨o, s⟩
  rw [hx] at h
  cases o with
  | ok a => exact .ok _
  | err e => exact .err _
  | panic => exact absurd rfl h.1
  | diverge => exact absurd rfl h.2

theorem Quietly.status {x : M Db ServiceError α} (n : α) (h : Quietly db x) :
    ∃ ok e, (status (into n x) db).1 = .ok (ok, e) := by
  rw [status_into]
  unfold Quietly at h
  cases hx : (x db).1 with
  | ok a => exact ⟨_, _, rfl⟩
  | err e => exact ⟨_, _, rfl⟩
  | panic => exact absurd hx h.1
  | diverge => exact absurd hx h.2

end

omit [Env] in
/-- The outcome of a call of the library is that of the `Op`. -/
theorem NoTrap.of_call {α β : Type} {x : M Db TrustGraphError α} {db : Db} {f : α → β}
    (h : ((x >>= fun a => pure (f a) : M Db TrustGraphError β) db).1.NoTrap) : (x db).1.NoTrap := by
  rw [M.bind_run] at h
  rcases hx : x db with ⟨o, s⟩
  rw [hx] at h
  cases o with
  | ok a => exact .ok _
  | err e => exact .err _
  | panic => exact absurd rfl h.1
  | diverge => exact absurd rfl h.2

/-- **C74**: every call of the service other than `insert_cert_raw` returns a result record: no argument, call context, stored graph or
SQL failure makes it trap.  (`Bounded`: a release build, or the number of relations stays below 2^32 - 16.) -/
theorem C74_no_trap_partial (c : Call) (hc : ∀ s t, c ≠ .insertCertRaw s t) (cp : CallParams) {db : Db} (hr : Reachable db)
    (hb : db.Bounded c.size) : c.Answers cp db := by
  have hh := hr.healthy
  cases c with
  | setRoot p n =>
    show ∃ ok e, (status (Service.setRoot cp p n) db).1 = .ok (ok, e)
    unfold Service.setRoot
    split
    · refine Quietly.status _ (.lift (extractPublicKey_noTrap p) fun pk _ => .tg ?_)
      exact NoTrap.of_call ((Op.setRoot pk n.toNat).call_noTrap hh hb)
    · exact ⟨_, _, rfl⟩
  | insertCertRaw s t => exact absurd rfl (hc s t)
  | insertCert ct t =>
    refine Quietly.status _ (.lift (.mapErr _ (.bind (Dto.collect_noTrap _).1 fun _ => .ok _)) fun c h => .tg ?_)
    refine NoTrap.of_call ((Op.add c (.ofSecs t)).call_noTrap hh ?_)
    have h := Outcome.mapErr_eq_ok.mp h
    unfold Dto.toCertificate at h
    cases hl : Dto.collect Dto.toTrust ct.chain with
    | ok l =>
      rw [hl] at h
      cases h
      have := (Dto.collect_noTrap _).2 l hl
      show db.Bounded l.length
      rw [this]
      exact hb
    | _ => rw [hl] at h; cases h
  | getAllCerts p t =>
    exact Quietly.status _ (.lift (checkTimestamp_noTrap _ _) fun _ _ => .lift (extractPublicKey_noTrap p) fun pk _ =>
      .tg_pure (NoTrap.of_call ((Op.getAllCerts pk (.ofSecs t)).call_noTrap hh hb)))
  | getAllCertsFrom p i t =>
    exact Quietly.status _ (.lift (checkTimestamp_noTrap _ _) fun _ _ => .lift (extractPublicKey_noTrap p) fun pk _ =>
      .lift (extractPublicKey_noTrap i) fun ik _ =>
      .tg_pure (NoTrap.of_call ((Op.getAllCertsFrom pk ik (.ofSecs t)).call_noTrap hh hb)))
  | getHostCerts t =>
    exact Quietly.status _ (.lift (checkTimestamp_noTrap _ _) fun _ _ => .lift (extractPublicKey_noTrap _) fun pk _ =>
      .tg_pure (NoTrap.of_call ((Op.getAllCerts pk (.ofSecs t)).call_noTrap hh hb)))
  | getHostCertsFrom i t =>
    exact Quietly.status _ (.lift (checkTimestamp_noTrap _ _) fun _ _ => .lift (extractPublicKey_noTrap _) fun pk _ =>
      .lift (extractPublicKey_noTrap i) fun ik _ =>
      .tg_pure (NoTrap.of_call ((Op.getAllCertsFrom pk ik (.ofSecs t)).call_noTrap hh hb)))
  | getWeight p t =>
    exact Quietly.status _ (.lift (checkTimestamp_noTrap _ _) fun _ _ => .lift (extractPublicKey_noTrap p) fun pk _ =>
      .tg_pure (NoTrap.of_call ((Op.weight pk (.ofSecs t)).call_noTrap hh hb)))
  | getWeightFrom p i t =>
    exact Quietly.status _ (.lift (checkTimestamp_noTrap _ _) fun _ _ => .lift (extractPublicKey_noTrap p) fun pk _ =>
      .lift (extractPublicKey_noTrap i) fun ik _ =>
      .tg_pure (NoTrap.of_call ((Op.weightFrom pk ik (.ofSecs t)).call_noTrap hh hb)))
  | getTrustBytes p e i => exact Quietly.status _ (.lift (extractPublicKey_noTrap p) fun _ _ => .pure _)
  | issueTrust p e i b => exact Quietly.status _ (.lift (extractPublicKey_noTrap p) fun _ _ => .pure _)
  | verifyTrust t i ts =>
    refine Quietly.status _ (.lift (checkTimestamp_noTrap _ _) fun _ _ => .lift (extractPublicKey_noTrap i) fun pk _ =>
      .lift ((Dto.toTrust_noTrap t).mapErr _) fun t' _ => .lift' (.mapErr _ ?_))
    rcases Trust.verify_cases t' pk (.ofSecs ts) with h | ⟨e, h⟩ <;> rw [h]
    · exact .ok _
    · exact .err _
  | addTrust t i ts =>
    refine Quietly.status _ (.lift (extractPublicKey_noTrap i) fun pk _ => .lift (checkTimestamp_noTrap _ _) fun _ _ => ?_)
    split
    · exact .err _
    · exact .lift ((Dto.toTrust_noTrap t).mapErr _) fun t' _ =>
        .tg (NoTrap.of_call ((Op.addTrust t' pk (.ofSecs ts)).call_noTrap hh hb))
  | getRevocationBytes p r => exact Quietly.status _ (.lift (extractPublicKey_noTrap p) fun _ _ => .pure _)
  | issueRevocation b p r s =>
    exact Quietly.status _ (.lift (extractPublicKey_noTrap p) fun _ _ => .lift (extractPublicKey_noTrap b) fun _ _ => .pure _)
  | revoke r ts =>
    refine Quietly.status _ (.lift (checkTimestamp_noTrap _ _) fun _ _ => ?_)
    split
    · exact .err _
    · exact .lift ((Dto.toRevocation_noTrap r).mapErr _) fun r' _ =>
        .tg (NoTrap.of_call ((Op.revoke r').call_noTrap hh hb))
  | exportRevocations p =>
    exact Quietly.status _ (.lift (extractPublicKey_noTrap p) fun pk _ =>
      .tg_pure (NoTrap.of_call ((Op.getRevocations pk).call_noTrap hh hb)))

/-- **C74** for `insert_cert_raw`: it traps only while reading the text of the certificate. -/
theorem C74_raw_partial (s : Str) (t : UInt64) (cp : CallParams) {db : Db} (hr : Reachable db)
    (ht : (Certificate.fromStr s).NoTrap)
    (hb : ∀ c, Certificate.fromStr s = .ok c → db.Bounded c.chain.length) : (Call.insertCertRaw s t).Answers cp db := by
  refine Quietly.status _ (.lift (ht.mapErr _) fun c h => .tg ?_)
  exact NoTrap.of_call ((Op.add c (.ofSecs t)).call_noTrap hr.healthy (hb c (Outcome.mapErr_eq_ok.mp h)))

end TG
