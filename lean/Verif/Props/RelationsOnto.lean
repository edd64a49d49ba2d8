/-
Properties C24 and C25 for a database that holds relations already.
-/
import Verif.Props.RelationsWitness

namespace TG

set_option maxRecDepth 100000

section
variable [Env]

/-- **C24**, from any healthy database: after submitting trusts and revocations one after the other, `r` is stored iff either it was stored
before and nothing submitted for its pair is newer, or it was submitted at a moment when everything stored or submitted before for its pair
was older, and nothing submitted later for its pair is newer. -/
theorem C24_onto {db : Db} (hh : db.Healthy) (hf : db.NoFaults) (now : Dur) (us : List TrustRelation) (hus : ∀ u ∈ us, u.Whole)
    (r : TrustRelation) :
    (submitAll now us db).Stored r ↔
      (db.Stored r ∧ ∀ q ∈ us, q.SamePair r → ¬ r.Before q) ∨
      ∃ pre post, us = pre ++ r :: post ∧ (∀ q, db.Stored q → q.SamePair r → q.Before r) ∧
        (∀ q ∈ pre, q.SamePair r → q.Before r) ∧ (∀ q ∈ post, q.SamePair r → ¬ r.Before q) := by
  induction us generalizing db with
  | nil =>
    constructor
    · exact fun h => Or.inl ⟨h, by simp⟩
    · rintro (⟨h, -⟩ | ⟨pre, post, h, -⟩)
      · exact h
      · exact absurd h (by simp)
  | cons u us ih =>
    have huw := hus u (by simp)
    have hstep : submitAll now (u :: us) db = submitAll now us (db.update u) := by
      show submitAll now us (u.submit now db) = _
      rw [Db.submit_eq hh hf]
    rw [hstep, ih (hh.update u) (hf.update u) (fun v hv => hus v (by simp [hv]))]
    constructor
    · rintro (⟨hs, hall⟩ | ⟨pre, post, rfl, hst, h1, h2⟩)
      · rcases (Db.stored_update hh huw).mp hs with ⟨rfl, hold⟩ | ⟨hs, hne⟩
        · exact Or.inr ⟨[], us, rfl, hold, by simp, hall⟩
        · refine Or.inl ⟨hs, fun q hq hp => ?_⟩
          rcases List.mem_cons.mp hq with rfl | hq
          · exact hne ⟨hp.1.symm, hp.2.symm⟩
          · exact hall q hq hp
      · refine Or.inr ⟨u :: pre, post, rfl, ?_, ?_, h2⟩
        · intro q hq hp
          by_cases hb : q.SamePair u ∧ q.Before u
          · -- then `u` replaced `q`, and `u` is older than `r`
            have hu : (db.update u).Stored u := (Db.stored_update hh huw).mpr (Or.inl ⟨rfl, fun old ho hpo => by
              rw [hh.stored_unique ho hq (hpo.1.trans hb.1.1.symm) (hpo.2.trans hb.1.2.symm)]
              exact hb.2⟩)
            have := hst u hu ⟨hb.1.1.symm.trans hp.1, hb.1.2.symm.trans hp.2⟩
            have hb2 := hb.2
            unfold TrustRelation.Before at *
            omega
          · exact hst q ((Db.stored_update hh huw).mpr (Or.inr ⟨hq, fun h h' => hb ⟨h, h'⟩⟩)) hp
        · intro q hq hp
          rcases List.mem_cons.mp hq with rfl | hq
          · by_cases hall : ∀ old, db.Stored old → old.SamePair q → old.Before q
            · exact hst q ((Db.stored_update hh huw).mpr (Or.inl ⟨rfl, hall⟩)) hp
            · push Not at hall
              obtain ⟨old, ho, hpo, hge⟩ := hall
              have := hst old ((Db.stored_update hh huw).mpr (Or.inr ⟨ho, fun _ => hge⟩))
                ⟨hpo.1.trans hp.1, hpo.2.trans hp.2⟩
              unfold TrustRelation.Before at *
              omega
          · exact h1 q hq hp
    · rintro (⟨hs, hall⟩ | ⟨pre, post, e, hst, h1, h2⟩)
      · refine Or.inl ⟨(Db.stored_update hh huw).mpr (Or.inr ⟨hs, fun hp => ?_⟩), fun q hq => hall q (by simp [hq])⟩
        exact hall u (by simp) ⟨hp.1.symm, hp.2.symm⟩
      · cases pre with
        | nil =>
          cases e
          exact Or.inl ⟨(Db.stored_update hh huw).mpr (Or.inl ⟨rfl, hst⟩), h2⟩
        | cons v pre =>
          cases e
          refine Or.inr ⟨pre, post, rfl, ?_, fun q hq => h1 q (by simp [hq]), h2⟩
          intro q hq hp
          rcases (Db.stored_update hh huw).mp hq with ⟨rfl, -⟩ | ⟨hq, -⟩
          · exact h1 q (by simp) hp
          · exact hst q hq hp

/-- **C25**, from any healthy database, and for any two times of the calls: if the relations submitted for the same pair of keys all have
different issue times, the order of submission does not matter, whatever was stored before. -/
theorem C25_onto {db : Db} (hh : db.Healthy) (hf : db.NoFaults) (now now' : Dur) {us vs : List TrustRelation} (hperm : us.Perm vs)
    (hus : ∀ u ∈ us, u.Whole)
    (hdiff : ∀ q ∈ us, ∀ r ∈ us, q.SamePair r → q.issuedAt.total = r.issuedAt.total → q = r) (r : TrustRelation) :
    (submitAll now us db).Stored r ↔ (submitAll now' vs db).Stored r := by
  have key : ∀ (now : Dur) (us : List TrustRelation), (∀ u ∈ us, u.Whole) →
      (∀ q ∈ us, ∀ r ∈ us, q.SamePair r → q.issuedAt.total = r.issuedAt.total → q = r) →
      ((submitAll now us db).Stored r ↔ (db.Stored r ∧ ∀ q ∈ us, q.SamePair r → ¬ r.Before q) ∨
        (r ∈ us ∧ (∀ q, db.Stored q → q.SamePair r → q.Before r) ∧ ∀ q ∈ us, q.SamePair r → ¬ r.Before q)) := by
    intro now us hus hdiff
    rw [C24_onto hh hf now us hus]
    refine or_congr Iff.rfl ?_
    constructor
    · rintro ⟨pre, post, rfl, hst, h1, h2⟩
      refine ⟨by simp, hst, ?_⟩
      intro q hq hp hb
      rcases List.mem_append.mp hq with hq | hq
      · have := h1 q hq hp
        unfold TrustRelation.Before at hb this
        omega
      · rcases List.mem_cons.mp hq with rfl | hq
        · unfold TrustRelation.Before at hb
          omega
        · exact h2 q hq hp hb
    · rintro ⟨hr, hst, hmax⟩
      obtain ⟨pre, post, rfl, hfirst⟩ := List.append_of_mem_first hr
      refine ⟨pre, post, rfl, hst, ?_, fun q hq => hmax q (by simp [hq])⟩
      intro q hq hp
      have h1 := hmax q (by simp [hq]) hp
      by_contra h2
      have : q = r := hdiff q (by simp [hq]) r (by simp) hp (by unfold TrustRelation.Before at h1 h2; omega)
      exact hfirst (this ▸ hq)
  rw [key now us hus hdiff, key now' vs (fun u hu => hus u (hperm.mem_iff.mpr hu))
    (fun q hq r hr => hdiff q (hperm.mem_iff.mpr hq) r (hperm.mem_iff.mpr hr))]
  simp only [hperm.mem_iff]

end

/-- C24, C25: onto a database with two trusts, one of which (of key 1 in itself) stays; both orders leave the same three rows. -/
example : Small.db.Healthy ∧ Small.db.NoFaults ∧ Small.db.relations.length = 2 ∧
    (submitAll (Toy.s 1) Rel.updates Small.db).relations =
      [Sqlite.toRow (.auth ⟨Toy.trust 1 1 1000 1, Toy.pk 1⟩), Sqlite.toRow (.revocation (Toy.revocation 1 2 20)),
       Sqlite.toRow (.auth ⟨Toy.trust 2 1 1000 15, Toy.pk 2⟩)] ∧
    (submitAll (Toy.s 7) Rel.updates.reverse Small.db).relations =
      [Sqlite.toRow (.auth ⟨Toy.trust 1 1 1000 1, Toy.pk 1⟩), Sqlite.toRow (.auth ⟨Toy.trust 2 1 1000 15, Toy.pk 2⟩),
       Sqlite.toRow (.revocation (Toy.revocation 1 2 20))] :=
  ⟨Small.reachable.healthy, rfl, by decide +kernel, by decide +kernel, by decide +kernel⟩

end TG
