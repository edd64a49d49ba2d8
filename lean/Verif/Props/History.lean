/-
Properties C29–C31, C34–C36, C70: histories.
-/
import Verif.Proofs.Ops
import Verif.Spec.Submits

namespace TG
open TG.Sqlite
variable [Env]

/-- The pair of keys of a revocation. -/
def Revocation.Covers (r : Revocation) (a : Auth) : Prop := a.issuedBy = r.revokedBy ∧ a.trust.issuedFor = r.pk

omit [Env] in
theorem Dur.total_trunc_le (d : Dur) : d.trunc.total ≤ d.total := by
  have e1 : d.trunc.total = d.secs.toNat * 1000000000 := Nat.add_zero _
  rw [e1]
  unfold Dur.total
  omega

omit [Env] in
theorem Dur.secs_le_of_total {d e : Dur} (h : d.total ≤ e.total) : d.secs.toNat ≤ e.secs.toNat := by
  have hn := e.nanos.isLt
  unfold Dur.total at h
  omega

omit [Env] in
theorem Dur.Whole.le_trunc {d e : Dur} (h : d.Whole) (hle : d.total ≤ e.total) : d.total ≤ e.trunc.total := by
  have e1 : e.trunc.total = e.secs.toNat * 1000000000 := Nat.add_zero _
  have e2 : d.total = d.secs.toNat * 1000000000 := by
    unfold Dur.total
    rw [show d.nanos = 0 from h]
    exact Nat.add_zero _
  rw [e1, e2]
  exact Nat.mul_le_mul_right _ (Dur.secs_le_of_total hle)

/-- **C29**, what holds without regard to time: a stored revocation is only ever replaced by a later revocation of the same key by the same
key, unless somebody submits a trust of that pair, signed, that was issued after it.  In particular no trust of the pair is stored. -/
theorem C29_revocation_stays_partial {db db' : Db} (hr : Reachable db) {r : Revocation} (hs : db.Stored (.revocation r))
    (hl : Later (fun op => ∀ a, op.Submits (.auth a) → r.Covers a → a.trust.issuedAt.total ≤ r.revokedAt.total) db db') :
    (∃ r', db'.Stored (.revocation r') ∧ r'.revokedBy = r.revokedBy ∧ r'.pk = r.pk ∧
      r.revokedAt.total ≤ r'.revokedAt.total) ∧
    ∀ a, db'.Stored (.auth a) → ¬ r.Covers a := by
  have key : ∃ r', db'.Stored (.revocation r') ∧ r'.revokedBy = r.revokedBy ∧ r'.pk = r.pk ∧
      r.revokedAt.total ≤ r'.revokedAt.total := by
    induction hl with
    | refl => exact ⟨r, hs, rfl, rfl, Nat.le_refl _⟩
    | weather fs _ ih => exact ih
    | @step db1 op hok hl ih =>
      obtain ih := ih
      refine (Op.run_steps (R := fun s s' : Db => s.Healthy ∧ (∃ r', s.Stored (.revocation r') ∧ r'.revokedBy = r.revokedBy ∧
          r'.pk = r.pk ∧ r.revokedAt.total ≤ r'.revokedAt.total) → s'.Healthy ∧ ∃ r', s'.Stored (.revocation r') ∧
          r'.revokedBy = r.revokedBy ∧ r'.pk = r.pk ∧ r.revokedAt.total ≤ r'.revokedAt.total)
        ⟨fun _ h => h, fun _ _ _ h1 h2 h => h2 (h1 h), fun _ fs h => ⟨h.1.faults fs, h.2⟩⟩ op ?_ ?_ ?_ db1
          ⟨(hl.reachable hr).healthy, ih⟩).2
      · rintro now - s ⟨hh, r', h1, h2⟩
        exact ⟨hh.collect now, r', (Db.stored_collect now).mpr ⟨h1, by simp⟩, h2⟩
      · rintro q hq hv - s hn ⟨hh, r', h1, h2, h3, h4⟩
        refine ⟨hh.put q, ?_⟩
        by_cases hp : (TrustRelation.revocation r').SamePair q
        · have hb := (Db.newer_iff' hh).mp hn _ h1 hp
          unfold TrustRelation.Before at hb
          rcases q with a | r''
          · have := hok a ⟨hq, hv⟩ ⟨hp.2.symm.trans h2, hp.1.symm.trans h3⟩
            exact absurd hb (Nat.not_lt.mpr (Nat.le_trans this h4))
          · refine ⟨{ r'' with revokedAt := r''.revokedAt.trunc }, Db.stored_put.mpr (Or.inl rfl), hp.2.symm.trans h2,
              hp.1.symm.trans h3, ?_⟩
            exact Nat.le_trans h4 (Dur.Whole.le_trunc h1.1 (Nat.le_of_lt hb))
        · exact ⟨r', Db.stored_put.mpr (Or.inr ⟨h1, hp⟩), h2, h3, h4⟩
      · rintro pk n - s ⟨hh, h⟩
        exact ⟨hh.addRoot pk (getWeightFactor_le n), h⟩
  refine ⟨key, ?_⟩
  obtain ⟨r', h1, h2, h3, -⟩ := key
  rintro a ha ⟨e1, e2⟩
  have := (hl.reachable hr).healthy.stored_unique h1 ha (h3.trans e2.symm) (h2.trans e1.symm)
  cases this

/-- **C29**, what holds in bounded time: if every trust of the pair issued after the revocation (with a time in whole seconds) that is submitted
expires no earlier than `deadline` and all calls happen before, no trust of the pair issued at or before the revocation is ever stored again.
Without the deadline it fails: `C29_no_replay_fails`. -/
theorem C29_no_replay_partial {db db' : Db} (hr : Reachable db) {r : Revocation} (hs : db.Stored (.revocation r)) (deadline : Int)
    (hl : Later (fun op =>
      (∀ a, op.Submits (.auth a) → r.Covers a → r.revokedAt.total < a.trust.issuedAt.total →
        a.trust.issuedAt.Whole ∧ deadline ≤ asI64 a.trust.expiresAt.secs) ∧
      ∀ now, op.time = some now → asI64 now.secs < deadline) db db') :
    ∀ a, db'.Stored (.auth a) → r.Covers a → r.revokedAt.total < a.trust.issuedAt.total := by
  let Inv : Db → Prop := fun s => ∃ x : TrustRelation, s.Stored x ∧ x.issuedBy = r.revokedBy ∧ x.issuedFor = r.pk ∧
    r.revokedAt.total ≤ x.issuedAt.total ∧
    ∀ a, x = .auth a → r.revokedAt.total < a.trust.issuedAt.total ∧ deadline ≤ asI64 a.trust.expiresAt.secs
  have key : Inv db' := by
    induction hl with
    | refl => exact ⟨.revocation r, hs, rfl, rfl, Nat.le_refl _, by simp⟩
    | weather fs _ ih => exact ih
    | @step db1 op hok hl ih =>
      refine (Op.run_steps (R := fun s s' : Db => s.Healthy ∧ Inv s → s'.Healthy ∧ Inv s')
        ⟨fun _ h => h, fun _ _ _ h1 h2 h => h2 (h1 h), fun _ fs h => ⟨h.1.faults fs, h.2⟩⟩ op ?_ ?_ ?_ db1
          ⟨(hl.reachable hr).healthy, ih⟩).2
      · rintro now hnow s ⟨hh, x, h1, h2, h3, h4, h5⟩
        refine ⟨hh.collect now, x, (Db.stored_collect now).mpr ⟨h1, ?_⟩, h2, h3, h4, h5⟩
        intro a ha
        have := hok.2 now hnow
        have := (h5 a ha).2
        unfold Spec.Live
        omega
      · rintro q hq hv - s hn ⟨hh, x, h1, h2, h3, h4, h5⟩
        refine ⟨hh.put q, ?_⟩
        by_cases hp : x.SamePair q
        · have hb := (Db.newer_iff' hh).mp hn _ h1 hp
          unfold TrustRelation.Before at hb
          refine ⟨q.trunc, Db.stored_put.mpr (Or.inl rfl), by rw [TrustRelation.trunc_issuedBy]; exact hp.2.symm.trans h2,
            by rw [TrustRelation.trunc_issuedFor]; exact hp.1.symm.trans h3, ?_, ?_⟩
          · refine Nat.le_trans h4 ?_
            have hw : x.issuedAt.Whole := by
              have := h1.1
              cases x
              · exact this.1
              · exact this
            have := Dur.Whole.le_trunc hw (Nat.le_of_lt hb)
            cases q <;> exact this
          · rintro a ha
            rcases q with b | r''
            · simp only [TrustRelation.trunc, TrustRelation.auth.injEq] at ha
              subst ha
              have hlt : r.revokedAt.total < b.trust.issuedAt.total := Nat.lt_of_le_of_lt h4 hb
              obtain ⟨w1, w2⟩ := hok.1 b ⟨hq, hv⟩ ⟨hp.2.symm.trans h2, hp.1.symm.trans h3⟩ hlt
              refine ⟨?_, w2⟩
              show r.revokedAt.total < b.trust.issuedAt.trunc.total
              rw [w1.trunc_eq]
              exact hlt
            · cases ha
        · exact ⟨x, Db.stored_put.mpr (Or.inr ⟨h1, hp⟩), h2, h3, h4, h5⟩
      · rintro pk n - s ⟨hh, h⟩
        exact ⟨hh.addRoot pk (getWeightFactor_le n), h⟩
  obtain ⟨x, h1, h2, h3, h4, h5⟩ := key
  rintro a ha ⟨e1, e2⟩
  have := (hl.reachable hr).healthy.stored_unique h1 ha (h3.trans e2.symm) (h2.trans e1.symm)
  exact (h5 a this).1

/-- A stored trust survives every call that happens before its expiry and does not submit a relation of the same pair. -/
theorem stored_survives {db : Db} {a : Auth} (hs : db.Stored (.auth a)) (op : Op)
    (ht : ∀ now, op.time = some now → Spec.Live a.trust now)
    (hoff : ∀ q, op.Submits q → ¬ q.SamePair (.auth a)) : (op.run db).Stored (.auth a) := by
  refine Op.run_steps (R := fun s s' : Db => s.Stored (.auth a) → s'.Stored (.auth a))
    ⟨fun _ h => h, fun _ _ _ h1 h2 h => h2 (h1 h), fun _ fs h => h⟩ op ?_ ?_ ?_ db hs
  · intro now hnow s h
    exact (Db.stored_collect now).mpr ⟨h, fun a' e => by cases e; exact ht now hnow⟩
  · intro q hq hv _ s _ h
    exact Db.stored_put.mpr (Or.inr ⟨h, fun hp => hoff q ⟨hq, hv⟩ ⟨hp.1.symm, hp.2.symm⟩⟩)
  · exact fun _ _ _ _ h => h

theorem Spec.live_of_total {t : Trust} {now : Dur} (hw : t.expiresAt.Whole) (hexp : t.expiresAt.secs.toNat < 2 ^ 63)
    (h : now.total < t.expiresAt.total) : Spec.Live t now := by
  have h1 := now.nanos.isLt
  have h' : t.expiresAt.nanos.val = 0 := by rw [show t.expiresAt.nanos = 0 from hw]; rfl
  unfold Dur.total at h
  rw [Spec.live_iff (by omega) hexp]
  omega

/-- **C30**, what holds (expiry below 2^63): a stored trust is not removed by any call before its expiry, and an expired trust is in no certificate
that is returned.  At `now = expires_at` the trust verifies but is collected: `C30_counts_until_expiry_fails`. -/
theorem C30_counts_until_expiry_partial {db : Db} (hr : Reachable db) :
    (∀ (a : Auth) (op : Op), db.Stored (.auth a) → a.trust.expiresAt.secs.toNat < 2 ^ 63 →
      (∀ now, op.time = some now → now.total < a.trust.expiresAt.total) → op.IsQuery → (op.run db).Stored (.auth a)) ∧
    (∀ (target : PublicKey) (now : Dur) (cs : List Certificate) (db' : Db), now.secs.toNat < 2 ^ 63 →
      TrustGraph.getAllCerts target now db = (.ok cs, db') →
      ∀ c ∈ cs, ∀ t ∈ c.chain, t.expiresAt.secs.toNat < 2 ^ 63 → ¬ t.expiresAt.total < now.total) := by
  constructor
  · intro a op hs hexp ht hq
    refine stored_survives hs op (fun now hnow => Spec.live_of_total hs.1.2 hexp (ht now hnow)) ?_
    cases op <;> simp_all [Op.Submits, Op.offers, Op.IsQuery]
  · intro target now cs db' hnow h c hc t ht hexp hlt
    have hl := C01_rooted_linked_chains hr.healthy h c hc
    have hlive : Spec.Live t now := by
      obtain ⟨i, hi⟩ := List.mem_iff_getElem?.mp ht
      rcases i with _ | i
      · exact (hl.root t hi).2.2
      · have hlen := (List.getElem?_eq_some_iff.mp hi).1
        exact (hl.link i _ t (List.getElem?_eq_getElem (by omega)) hi).2
    rw [Spec.live_iff hnow hexp] at hlive
    have h1 := now.nanos.isLt
    have h2 := t.expiresAt.nanos.isLt
    unfold Dur.total at hlt
    omega

/-- **C31**, for expiry times below 2^63: through any number of calls at times before its expiry a stored trust stays, unless a relation of the same
pair is submitted.  Beyond 2^63 it fails: `C31_far_future_fails`. -/
theorem C31_far_future_partial {db db' : Db} {a : Auth} (hs : db.Stored (.auth a)) (hexp : a.trust.expiresAt.secs.toNat < 2 ^ 63)
    (hl : Later (fun op => (∀ now, op.time = some now → now.total < a.trust.expiresAt.total) ∧
      ∀ q, op.Submits q → ¬ q.SamePair (.auth a)) db db') : db'.Stored (.auth a) := by
  induction hl with
  | refl => exact hs
  | weather fs _ ih => exact ih
  | step op hok _ ih =>
    exact stored_survives ih op (fun now hnow => Spec.live_of_total hs.1.2 hexp (hok.1 now hnow)) hok.2

/-- **C34.** Only `set_root` changes the roots. -/
theorem C34_only_set_root (op : Op) (h : ∀ pk n, op ≠ .setRoot pk n) (db : Db) : (op.run db).roots = db.roots :=
  Op.run_steps (R := fun s s' : Db => s'.roots = s.roots)
    ⟨fun _ => rfl, fun _ _ _ h1 h2 => h2.trans h1, fun _ _ => rfl⟩ op (fun _ _ _ => rfl) (fun _ _ _ _ _ _ => rfl)
    (fun pk n e => absurd e (h pk n)) db

/-- **C34.** A root is never lost, and keeps its factor, whatever happens. -/
theorem C34_roots_never_lost {db db' : Db} (hl : Later (fun _ => True) db db') (pk : PublicKey) (f : Nat)
    (h : db.rootFactor pk = some f) : db'.rootFactor pk = some f := by
  induction hl with
  | refl => exact h
  | weather fs _ ih => exact ih
  | step op _ _ ih =>
    refine Op.run_steps (R := fun s s' : Db => s.rootFactor pk = some f → s'.rootFactor pk = some f)
      ⟨fun _ h => h, fun _ _ _ h1 h2 h => h2 (h1 h), fun _ fs h => h⟩ op (fun _ _ _ h => h) (fun _ _ _ _ _ _ h => h) ?_ _ ih
    intro pk' n _ s h
    unfold Db.rootFactor Db.addRoot at *
    rw [List.find?_append]
    rcases hf : s.roots.find? (fun r => r.publicKey = keyText pk) with _ | row
    · rw [hf] at h; cases h
    · rw [hf] at h; simpa [hf] using h

/-- **C34**, first registration of a key: after `set_root(pk, n)` its weight is at least `2^min(16, n)`.  A second call for the same key has no
effect on its weight: `C34_latest_set_root_fails`. -/
theorem C34_first_set_root_partial {db db1 db2 : Db} (hr : Reachable db) {pk : PublicKey} {n w : Nat} {now : Dur}
    (hnew : db.rootFactor pk = none) (hn : db.relations.length + 16 < 2 ^ 32) (h1 : TrustGraph.setRoot pk n db = (.ok (), db1))
    (h2 : TrustGraph.weight pk now db1 = (.ok w, db2)) :
    db1.rootFactor pk = some (16 - min 16 n) ∧ 2 ^ min 16 n ≤ w := by
  have hcalm := (TrustGraph.setRoot_transparent pk n).ok h1
  have e : TrustGraph.setRoot pk n db.calm = (.ok (), db.calm.addRoot pk (getWeightFactor n)) := rfl
  rw [e] at hcalm
  have hdb1 : db1.calm = db.calm.addRoot pk (getWeightFactor n) := (Prod.ext_iff.mp hcalm).2.symm
  have hroots : db1.roots = db.roots ++ [⟨keyText pk, ((getWeightFactor n : Nat) : Int)⟩] := congrArg Db.roots hdb1
  have hrel : db1.calm.relations = db.calm.relations := by rw [hdb1]; rfl
  have hfac : db1.rootFactor pk = some (16 - min 16 n) := by
    unfold Db.rootFactor at *
    rw [hroots, List.find?_append]
    rw [Option.map_eq_none_iff] at hnew
    rw [hnew]
    simp [getWeightFactor, maxWeightFactor]
    omega
  refine ⟨hfac, ?_⟩
  have hh1 : db1.Healthy := by
    have := (hr.step (.setRoot pk n)).healthy
    rw [show Op.run (.setRoot pk n) db = db1 from congrArg Prod.snd h1] at this
    exact this
  have := C10_weight_is_best hh1 (by rw [show db1.relations = db.relations from hrel]; exact hn) h2
  refine this.2 (Or.inr (Or.inl ⟨_, hfac, ?_⟩))
  congr 1
  omega

end TG
