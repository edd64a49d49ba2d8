/-
No call of the library panics or runs forever.
-/
import Verif.Proofs.Ops
import Verif.Props.Updates

namespace TG
variable [Env]

/-- The outcome is a value or an error. -/
def Outcome.NoTrap {ε α : Type} (o : Outcome ε α) : Prop := o ≠ .panic ∧ o ≠ .diverge

/-- A release build, or so few relations that `extra` more do not overflow `u32` chain lengths. -/
def Db.Bounded (db : Db) (extra : Nat) : Prop := Env.debug = false ∨ db.relations.length + extra + 16 < 2 ^ 32

theorem chainFactor_release (hd : Env.debug = false) (f n : Nat) :
    ∃ x, TrustGraph.chainFactor f n = .ok x := by
  unfold TrustGraph.chainFactor
  dsimp only
  split
  · exact ⟨_, rfl⟩
  · rw [hd]; exact ⟨_, rfl⟩

theorem Trust.verify_cases (t : Trust) (by' : PublicKey) (now : Dur) :
    t.verify by' now = .ok () ∨ ∃ e, t.verify by' now = .err e := by
  unfold Trust.verify KeyPair.verify
  split
  · exact .inr ⟨_, rfl⟩
  · rcases PublicKey.verify_cases by' (Trust.signatureBytes t.issuedFor t.expiresAt t.issuedAt) t.signature with h | ⟨e, h⟩
    · left; rw [h]; rfl
    · right; rw [h]; exact ⟨_, rfl⟩

theorem Revocation.verify_cases (r : Revocation) : r.verify = .ok () ∨ ∃ e, r.verify = .err e := by
  unfold Revocation.verify
  rcases PublicKey.verify_cases r.revokedBy (Revocation.signatureBytes r.pk r.revokedAt) r.signature with h | ⟨e, h⟩
  · left; rw [h]; rfl
  · right; rw [h]; exact ⟨_, rfl⟩

namespace Db
variable {db : Db}

theorem weightFactorLoop_release (hd : Env.debug = false) (hh : db.Healthy) (hf : db.NoFaults) (cs : List Certificate)
    (h : ∀ c ∈ cs, c.chain ≠ [] ∧ ∀ t, c.chain[0]? = some t → (db.rootFactor t.issuedFor).isSome) (wf : Nat) :
    ∃ x, TrustGraph.weightFactorLoop cs wf db = (.ok x, db) := by
  induction cs generalizing wf with
  | nil => exact ⟨_, rfl⟩
  | cons c cs ih =>
    obtain ⟨hne, hroot⟩ := h c (by simp)
    unfold TrustGraph.weightFactorLoop
    rcases hch : c.chain with _ | ⟨t, ts⟩
    · exact absurd hch hne
    · obtain ⟨f, hfac⟩ := Option.isSome_iff_exists.mp (hroot t (by rw [hch]; rfl))
      dsimp only
      have h1 : TrustGraph.storage (Storage.getRootWeightFactor t.issuedFor) db
          = (.ok (db.rootFactor t.issuedFor), db) := Search.storage_ok (getRootWeightFactor_eq hh hf _)
      obtain ⟨x, hx⟩ := chainFactor_release hd f (t :: ts).length
      rw [M.bind_run_ok h1, hfac, Outcome.ofOption_some, M.bind_run_ok (M.lift_run _ _),
        hx, M.bind_run_ok (M.lift_run _ _)]
      exact ih (fun x hx => h x (List.mem_cons_of_mem _ hx)) _

theorem certificatesWeightFactor_release (hd : Env.debug = false) (hh : db.Healthy) (hf : db.NoFaults) (cs : List Certificate)
    (h : ∀ c ∈ cs, c.chain ≠ [] ∧ ∀ t, c.chain[0]? = some t → (db.rootFactor t.issuedFor).isSome) :
    ∃ x, TrustGraph.certificatesWeightFactor cs db = (.ok x, db) := by
  rcases cs with _ | ⟨c0, cs⟩
  · exact ⟨_, rfl⟩
  · obtain ⟨x, hx⟩ := weightFactorLoop_release hd hh hf (c0 :: cs) h (2 ^ 32 - 1)
    refine ⟨some x, ?_⟩
    change (TrustGraph.weightFactorLoop (c0 :: cs) (2 ^ 32 - 1) >>= fun wf => pure (some wf)) db = _
    rw [M.bind_run_ok hx]
    rfl

theorem certs_rooted (hh : db.Healthy) (target : PublicKey) (now : Dur) :
    ∀ c ∈ db.certs target now,
      c.chain ≠ [] ∧ ∀ t, c.chain[0]? = some t → ((db.collect now).rootFactor t.issuedFor).isSome := by
  intro c hc
  have ha := (mem_certs_iff hh target now c).mp hc
  refine ⟨?_, ?_⟩
  · intro e
    have := ha.linked.long
    rw [e] at this
    simp at this
  · intro t ht
    rw [rootFactor_collect, rootFactor_isSome]
    exact (ha.linked.root t ht).1

theorem weight_returns (hh : db.Healthy) (hf : db.NoFaults) (hb : db.Bounded 0) (pk : PublicKey) (now : Dur) :
    ∃ w, TrustGraph.weight pk now db = (.ok w, db.collect now) := by
  rcases hb with hd | hn
  · obtain ⟨x, hx⟩ := certificatesWeightFactor_release hd (hh.collect now) (hf.collect now) _ (certs_rooted hh pk now)
    have h1 : TrustGraph.storage (Storage.getRootWeightFactor pk) db
        = (.ok (db.rootFactor pk), db) := Search.storage_ok (getRootWeightFactor_eq hh hf pk)
    unfold TrustGraph.weight
    rw [M.bind_run_ok h1, M.bind_run_ok (getAllCerts_eq hh hf pk now), M.bind_run_ok hx]
    cases x <;> exact ⟨_, rfl⟩
  · obtain ⟨w, hw, -⟩ := weight_spec hh hf hn pk now
    exact ⟨w, hw⟩

theorem weightFrom_returns (hh : db.Healthy) (hf : db.NoFaults) (hb : db.Bounded 0) (pk issuer : PublicKey) (now : Dur) :
    ∃ w, TrustGraph.weightFrom pk issuer now db = (.ok w, db.collect now) := by
  rcases hb with hd | hn
  · obtain ⟨x, hx⟩ := certificatesWeightFactor_release hd (hh.collect now) (hf.collect now)
      ((db.certs pk now).filter (fun c => c.chain.any (fun t => t.issuedFor == issuer)))
      fun c hc => certs_rooted hh pk now c (List.mem_of_mem_filter hc)
    unfold TrustGraph.weightFrom
    rw [M.bind_run_ok (getAllCertsFrom_eq hh hf pk issuer now), M.bind_run_ok hx]
    cases x <;> exact ⟨_, rfl⟩
  · obtain ⟨w, hw, -⟩ := weightFrom_spec hh hf hn pk issuer now
    exact ⟨w, hw⟩

theorem put_length_le (r : TrustRelation) : (db.put r).relations.length ≤ db.relations.length + 1 := by
  unfold Db.put
  simp only [List.length_append, List.length_singleton, Nat.add_le_add_iff_right]
  exact List.length_filter_le _ _

theorem update_length_le (r : TrustRelation) : (db.update r).relations.length ≤ db.relations.length + 1 := by
  unfold Db.update
  split
  · exact put_length_le r
  · omega

theorem Bounded.mono {db db' : Db} {n n' : Nat} (h : db.Bounded n)
    (hle : db'.relations.length + n' ≤ db.relations.length + n) : db'.Bounded n' := by
  rcases h with h | h
  · exact .inl h
  · exact .inr (by omega)

/-- Adding a trust to a database that works. -/
theorem addTrust_noTrap (hh : db.Healthy) (hf : db.NoFaults) (hb : db.Bounded 0) (t : Trust) (by' : PublicKey) (now : Dur) :
    ∃ o db', TrustGraph.addTrust t by' now db = (o, db') ∧ o.NoTrap ∧ db'.Healthy ∧ db'.NoFaults ∧
      db'.relations.length ≤ db.relations.length + 1 := by
  rcases hv : t.verify by' now with u | e | _ | _
  · obtain ⟨w, hw⟩ := weight_returns hh hf hb by' now
    have hl := collect_length_le db now
    refine ⟨_, _, addTrust_eq hh hf hv hw, ⟨by simp, by simp⟩, ?_⟩
    generalize (if by' = t.issuedFor then w else w / 2) = n
    split
    · exact ⟨hh.collect now, hf.collect now, by omega⟩
    · have := update_length_le (db := db.collect now) (.auth ⟨t, by'⟩)
      exact ⟨(hh.collect now).update _, (hf.collect now).update _, by omega⟩
  · refine ⟨.err (.trustVerificationError e), db, ?_, ⟨by simp, by simp⟩, hh, hf, by omega⟩
    unfold TrustGraph.addTrust
    rw [hv]; rfl
  · rcases Trust.verify_cases t by' now with h | ⟨e, h⟩ <;> rw [h] at hv <;> cases hv
  · rcases Trust.verify_cases t by' now with h | ⟨e, h⟩ <;> rw [h] at hv <;> cases hv

theorem addLoop_noTrap (now : Dur) (ts : List Trust) (by' : PublicKey) (hh : db.Healthy) (hf : db.NoFaults)
    (hb : db.Bounded ts.length) : (TrustGraph.addLoop now by' ts db).1.NoTrap := by
  induction ts generalizing db by' with
  | nil => exact ⟨by simp [TrustGraph.addLoop], by simp [TrustGraph.addLoop]⟩
  | cons t ts ih =>
    unfold TrustGraph.addLoop
    obtain ⟨o, db', ho, hn, hh', hf', hl⟩ := addTrust_noTrap hh hf (hb.mono (by omega)) t by' now
    rw [M.bind_run, ho]
    cases o with
    | ok w => exact ih _ hh' hf' (hb.mono (by simp only [List.length_cons]; omega))
    | err e => exact ⟨by simp, by simp⟩
    | panic => exact absurd rfl hn.1
    | diverge => exact absurd rfl hn.2

end Db

/-- How many relations a call can add. -/
def Op.size : Op → Nat
  | .add c _ => c.chain.length
  | _ => 0

omit [Env] in
theorem Transparent.noTrap {α : Type} {x : M Db TrustGraphError α} (ht : Transparent IsInternal x) {db : Db}
    (h : (x db.calm).1.NoTrap) : (x db).1.NoTrap := by
  rcases ht db with ⟨e, he, -⟩ | ⟨he, -⟩
  · rw [he]; exact ⟨by simp, by simp⟩
  · rw [he]; exact h

omit [Env] in
theorem NoTrap.of_ok {α β : Type} {x : M Db TrustGraphError α} {db s : Db} {a : α} {f : α → β} (h : x db = (.ok a, s)) :
    ((x >>= fun a => pure (f a) : M Db TrustGraphError β) db).1.NoTrap := by
  rw [M.bind_run_ok h]
  exact ⟨by simp, by simp⟩

omit [Env] in
theorem NoTrap.of_noTrap {α β : Type} {x : M Db TrustGraphError α} {db : Db} {f : α → β} (h : (x db).1.NoTrap) :
    ((x >>= fun a => pure (f a) : M Db TrustGraphError β) db).1.NoTrap := by
  rw [M.bind_run]
  rcases hx : x db with ⟨o, s⟩
  rw [hx] at h
  cases o with
  | ok a => exact ⟨by simp, by simp⟩
  | err e => exact ⟨by simp, by simp⟩
  | panic => exact absurd rfl h.1
  | diverge => exact absurd rfl h.2

/-- No call of the library panics or runs forever, whatever SQL statements fail. -/
theorem Op.call_noTrap {db : Db} (hh : db.Healthy) (op : Op) (hb : db.Bounded op.size) : (op.call db).1.NoTrap := by
  apply op.call_transparent.noTrap
  have hc := hh.calm
  have hf := Db.calm_noFaults db
  replace hb : db.calm.Bounded op.size := hb
  generalize db.calm = db at *
  cases op with
  | setRoot pk n =>
    refine NoTrap.of_ok (x := TrustGraph.setRoot pk n) (f := fun _ => Answer.unit) (a := ()) (s := db.addRoot pk (getWeightFactor n)) ?_
    unfold TrustGraph.setRoot
    refine Search.storage_ok ?_
    show Sqlite.setRootWeightFactor _ _ _ = _
    unfold Sqlite.setRootWeightFactor
    rw [Db.stmt_noFaults hf]
    rfl
  | addTrust t by' now =>
    obtain ⟨o, db', ho, hn, -⟩ := Db.addTrust_noTrap hc hf hb t by' now
    exact NoTrap.of_noTrap (x := TrustGraph.addTrust t by' now) (f := Answer.weight) (by rw [ho]; exact hn)
  | add c now =>
    refine NoTrap.of_noTrap (x := TrustGraph.add c now) (f := fun _ => Answer.unit) ?_
    unfold TrustGraph.add
    rcases hch : c.chain with _ | ⟨t, ts⟩
    · exact ⟨by simp [M.fail], by simp [M.fail]⟩
    · refine Db.addLoop_noTrap now _ _ hc hf ?_
      rw [← hch]
      exact hb
  | revoke r =>
    refine NoTrap.of_noTrap (x := TrustGraph.revoke r) (f := fun _ => Answer.unit) ?_
    rcases Revocation.verify_cases r with h | ⟨e, h⟩
    · rw [Db.revoke_eq hc hf h]; exact ⟨by simp, by simp⟩
    · unfold TrustGraph.revoke
      rw [h]
      exact ⟨by simp [Outcome.mapErr, M.bind_run, M.lift_run], by simp [Outcome.mapErr, M.bind_run, M.lift_run]⟩
  | weight pk now =>
    obtain ⟨w, hw⟩ := Db.weight_returns hc hf hb pk now
    exact NoTrap.of_ok (f := Answer.weight) hw
  | weightFrom pk issuer now =>
    obtain ⟨w, hw⟩ := Db.weightFrom_returns hc hf hb pk issuer now
    exact NoTrap.of_ok (f := Answer.weight) hw
  | getAllCerts pk now => exact NoTrap.of_ok (f := Answer.certs) (Db.getAllCerts_eq hc hf pk now)
  | getAllCertsFrom pk issuer now => exact NoTrap.of_ok (f := Answer.certs) (Db.getAllCertsFrom_eq hc hf pk issuer now)
  | getRevocations pk =>
    have h : TrustGraph.getRevocations pk db = (.ok (db.view.revs pk), db) := Search.storage_ok ((Db.reads hc hf).revs pk)
    exact NoTrap.of_ok (f := Answer.revocations) h

end TG
