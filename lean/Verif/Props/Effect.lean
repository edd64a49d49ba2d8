/-
Property C76: an update that reports success has taken effect.
-/
import Verif.Props.Relations

namespace TG
variable [Env]

/-- What the caller of `revoke` counts on: after success no trust of the revoker in this key issued up to the time of the revocation is
stored any more. -/
def C76_statement : Prop :=
  ∀ (db db' : Db) (r : Revocation), Reachable db → TrustGraph.revoke r db = (.ok (), db') →
    ∀ t, db'.Stored (.auth ⟨t, r.revokedBy⟩) → t.issuedFor = r.pk → ¬ t.issuedAt.total ≤ r.revokedAt.total

/-- Once a relation has been handed to the storage, it is stored, or one of the same pair at least as new; and nothing older. -/
theorem Db.update_in_force {db : Db} (hh : db.Healthy) (r : TrustRelation) :
    (∃ q, (db.update r).Stored q ∧ q.SamePair r ∧ (q = r.trunc ∨ ¬ q.Before r)) ∧
    ∀ q, (db.update r).Stored q → q.SamePair r → q = r.trunc ∨ ¬ q.Before r := by
  unfold Db.update
  split
  · refine ⟨⟨r.trunc, Db.stored_put.mpr (.inl rfl), ⟨r.trunc_issuedFor, r.trunc_issuedBy⟩, .inl rfl⟩, ?_⟩
    intro q hq hp
    rcases Db.stored_put.mp hq with h | ⟨-, h⟩
    · exact .inl h
    · exact absurd hp h
  · rename_i hn
    rw [Db.newer_iff' hh] at hn
    push Not at hn
    obtain ⟨old, h1, h2, h3⟩ := hn
    refine ⟨⟨old, h1, h2, .inr h3⟩, ?_⟩
    intro q hq hp
    rw [hh.stored_unique hq h1 (hp.1.trans h2.1.symm) (hp.2.trans h2.2.symm)]
    exact .inr h3

/-- A successful `revoke` is the update by the revocation. -/
theorem revoke_ok_update {db db' : Db} {r : Revocation} (hh : db.Healthy) (h : TrustGraph.revoke r db = (.ok (), db')) :
    db'.calm = db.calm.update (.revocation r) := by
  have hv : r.verify = .ok () := by
    unfold TrustGraph.revoke at h
    rcases e : r.verify with _ | _ | _ | _ <;> rw [e] at h <;> first | rfl | cases h
  have h := (TrustGraph.revoke_transparent r).ok h
  rw [Db.revoke_eq hh.calm (Db.calm_noFaults _) hv] at h
  exact (Prod.ext_iff.mp h).2.symm

theorem Db.stored_calm {db : Db} {q : TrustRelation} : db.calm.Stored q ↔ db.Stored q := Iff.rfl

/-- **C76** for `revoke`, what holds: after success the revocation is stored, or a relation of the two keys dated at or after it; and any
trust of the revoker in this key still stored is dated at or after the revocation.  Equality of dates is the case in which it fails:
`C76_revoke_takes_effect_fails`. -/
theorem C76_revoke_takes_effect_partial {db db' : Db} {r : Revocation} (hr : Reachable db)
    (h : TrustGraph.revoke r db = (.ok (), db')) :
    (∃ q, db'.Stored q ∧ q.SamePair (.revocation r) ∧
      (q = (TrustRelation.revocation r).trunc ∨ r.revokedAt.total ≤ q.issuedAt.total)) ∧
    ∀ t, db'.Stored (.auth ⟨t, r.revokedBy⟩) → t.issuedFor = r.pk → r.revokedAt.total ≤ t.issuedAt.total := by
  have hd := revoke_ok_update hr.healthy h
  have hf := Db.update_in_force hr.healthy.calm (.revocation r)
  rw [← hd] at hf
  obtain ⟨⟨q, h1, h2, h3⟩, h4⟩ := hf
  refine ⟨⟨q, Db.stored_calm.mp h1, h2, h3.imp id Nat.not_lt.mp⟩, ?_⟩
  intro t ht hp
  rcases h4 (.auth ⟨t, r.revokedBy⟩) ht ⟨hp, rfl⟩ with h | h
  · cases h
  · exact Nat.not_lt.mp h

/-- **C76** for `add_trust`: after it has reported a positive weight, the trust is stored, or a relation of the two keys dated at or after
it; and a revocation of the recipient by the issuer still stored is dated at or after the trust. -/
theorem C76_add_trust_takes_effect {db db' : Db} {t : Trust} {by' : PublicKey} {now : Dur} {w : Nat} (hr : Reachable db)
    (h : TrustGraph.addTrust t by' now db = (.ok w, db')) (hw : w ≠ 0) :
    (∃ q, db'.Stored q ∧ q.SamePair (.auth ⟨t, by'⟩) ∧
      (q = (TrustRelation.auth ⟨t, by'⟩).trunc ∨ t.issuedAt.total ≤ q.issuedAt.total)) ∧
    ∀ r, db'.Stored (.revocation r) → r.pk = t.issuedFor → r.revokedBy = by' → t.issuedAt.total ≤ r.revokedAt.total := by
  have h := (TrustGraph.addTrust_transparent t by' now).ok h
  obtain ⟨-, wi, s1, hwi, -, -, hs⟩ := C20_returned_weight h
  have hu : ∃ d : Db, d.Healthy ∧ db'.calm = d.update (.auth ⟨t, by'⟩) := by
    have h1 : s1.Healthy := by
      have := TrustGraph.weight_steps (healthy_closed.collecting now) by' db.calm hr.healthy.calm
      rwa [hwi] at this
    have h2 : s1.NoFaults := by
      have := (TrustGraph.weight_transparent by' now).ok hwi
      have e : s1 = s1.calm := (Prod.ext_iff.mp (hwi.symm.trans this)).2
      rw [e]; exact Db.calm_noFaults _
    exact ⟨s1, h1, (Prod.ext_iff.mp ((hs (Nat.pos_of_ne_zero hw)).symm.trans (Db.updateRelation_eq h1 h2 _))).2⟩
  obtain ⟨d, hhd, hd⟩ := hu
  have hf := Db.update_in_force hhd (.auth ⟨t, by'⟩)
  rw [← hd] at hf
  obtain ⟨⟨q, h1, h2, h3⟩, h4⟩ := hf
  refine ⟨⟨q, Db.stored_calm.mp h1, h2, h3.imp id Nat.not_lt.mp⟩, ?_⟩
  intro r ht hp hb
  rcases h4 (.revocation r) ht ⟨hp, hb⟩ with h | h
  · cases h
  · exact Nat.not_lt.mp h

end TG
