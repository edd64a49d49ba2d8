/-
Properties C23–C28, C32, C33, C37, C69: the stored relations.
-/
import Verif.Spec.Submit
import Verif.Props.Updates

namespace TG
open TG.Sqlite
variable [Env]

/-- **C23.** At any point of any history there is at most one stored relation per ordered pair of keys: at most one row of the table, hence at
most one trust or revocation. -/
theorem C23_one_relation_per_pair {db : Db} (hr : Reachable db) :
    (∀ q r, db.Stored q → db.Stored r → q.SamePair r → q = r) ∧
    db.relations.Pairwise (fun x y => ¬ (x.issuedFor = y.issuedFor ∧ x.issuedBy = y.issuedBy)) :=
  ⟨fun _ _ hq hr' h => hr.healthy.stored_unique hq hr' h.1 h.2, hr.healthy.unique⟩

omit [Env] in
/-- The part of a list before the first occurrence of an element. -/
theorem List.append_of_mem_first {α : Type} [DecidableEq α] {a : α} {l : List α} (h : a ∈ l) :
    ∃ pre post, l = pre ++ a :: post ∧ a ∉ pre := by
  induction l with
  | nil => cases h
  | cons b l ih =>
    by_cases e : b = a
    · exact ⟨[], l, by simp [e], by simp⟩
    · obtain ⟨pre, post, rfl, hn⟩ := ih ((List.mem_cons.mp h).resolve_left (Ne.symm e))
      exact ⟨b :: pre, post, rfl, by simp [hn, Ne.symm e]⟩

namespace Db
variable {db : Db}

omit [Env] in
theorem collect_collect_of_le {t1 t2 : Dur} (h : asI64 t1.secs ≤ asI64 t2.secs) :
    (db.collect t1).collect t2 = db.collect t2 := by
  unfold collect
  simp only [List.filter_filter]
  congr 1
  apply List.filter_congr
  intro r _
  rw [Bool.eq_iff_iff]
  simp only [Bool.and_eq_true, decide_eq_true_eq, not_and]
  constructor
  · exact fun h => h.1
  · exact fun h' => ⟨h', fun h1 => h' (by omega)⟩

omit [Env] in
theorem collect_collect_of_le' {t1 t2 : Dur} (h : asI64 t1.secs ≤ asI64 t2.secs) :
    (db.collect t2).collect t1 = db.collect t2 := by
  unfold collect
  simp only [List.filter_filter]
  congr 1
  apply List.filter_congr
  intro r _
  rw [Bool.eq_iff_iff]
  simp only [Bool.and_eq_true, decide_eq_true_eq, not_and]
  constructor
  · exact fun h => h.2
  · exact fun h' => ⟨fun h1 => h' (by omega), h'⟩

theorem view_revs_nodup (hh : db.Healthy) (pk : PublicKey) : (db.view.revs pk).Nodup := by
  refine nodup_filterMap (rowsFor_nodup hh pk revocationType) ?_
  intro row hrow row' hrow' x hx hx'
  obtain ⟨r, hr, rfl⟩ := rows_of_rowsFor hh pk revocationType row hrow
  obtain ⟨r', hr', rfl⟩ := rows_of_rowsFor hh pk revocationType row' hrow'
  rw [rowRev_toRow hr] at hx
  rw [rowRev_toRow hr'] at hx'
  cases r <;> cases r' <;> simp_all

theorem submit_eq (hh : db.Healthy) (hf : db.NoFaults) (now : Dur) (r : TrustRelation) :
    r.submit now db = db.update r := by
  have := congrArg Prod.snd (updateRelation_eq hh hf r)
  cases r <;> exact this

theorem Healthy.submitAll (hh : db.Healthy) (hf : db.NoFaults) (now : Dur) (us : List TrustRelation) :
    (submitAll now us db).Healthy ∧ (submitAll now us db).NoFaults := by
  induction us generalizing db with
  | nil => exact ⟨hh, hf⟩
  | cons u us ih =>
    show (TG.submitAll now us (u.submit now db)).Healthy ∧ _
    have := submit_eq hh hf now u
    rw [this]
    have h2 := ih (hh.update u) (hf.update u)
    refine ⟨h2.1, ?_⟩
    show (TG.submitAll now us (u.submit now db)).NoFaults
    rw [this]
    exact h2.2

theorem submitAll_append (now : Dur) (us vs : List TrustRelation) :
    submitAll now (us ++ vs) db = submitAll now vs (submitAll now us db) := List.foldl_append

theorem newer_iff' (hh : db.Healthy) {r : TrustRelation} :
    db.Newer r ↔ ∀ old, db.Stored old → old.SamePair r → old.Before r := by
  rw [hh.newer_iff]
  exact ⟨fun h old hs hp => Dur.lt_iff.mp (h old hs hp.1 hp.2), fun h old hs h1 h2 => Dur.lt_iff.mpr (h old hs ⟨h1, h2⟩)⟩

theorem stored_update (hh : db.Healthy) {q r : TrustRelation} (hr : r.Whole) :
    (db.update r).Stored q ↔
      (q = r ∧ ∀ old, db.Stored old → old.SamePair r → old.Before r) ∨
      (db.Stored q ∧ (q.SamePair r → ¬ q.Before r)) := by
  unfold update
  split
  · rename_i hn
    rw [stored_put, hr.trunc_eq]
    rw [newer_iff' hh] at hn
    constructor
    · rintro (rfl | ⟨hs, hne⟩)
      · exact Or.inl ⟨rfl, hn⟩
      · exact Or.inr ⟨hs, fun h => absurd h hne⟩
    · rintro (⟨rfl, _⟩ | ⟨hs, hne⟩)
      · exact Or.inl rfl
      · exact Or.inr ⟨hs, fun h => hne h (hn q hs h)⟩
  · rename_i hn
    rw [newer_iff' hh] at hn
    constructor
    · intro hs
      refine Or.inr ⟨hs, fun hp hb => hn ?_⟩
      intro old ho hpo
      rw [hh.stored_unique ho hs (hpo.1.trans hp.1.symm) (hpo.2.trans hp.2.symm)]
      exact hb
    · rintro (⟨rfl, h⟩ | ⟨hs, _⟩)
      · exact absurd h hn
      · exact hs

/-- Something at least as new as any submitted relation is stored for its pair. -/
theorem exists_newest (hh : db.Healthy) (hf : db.NoFaults) (now : Dur) {us : List TrustRelation}
    (hus : ∀ u ∈ us, u.Whole) {q : TrustRelation} (hq : q ∈ us) :
    ∃ old, (TG.submitAll now us db).Stored old ∧ old.SamePair q ∧ ¬ old.Before q := by
  induction us using List.reverseRecOn with
  | nil => cases hq
  | append_singleton us u ih =>
    have hh := hh.submitAll hf now us
    have huw := hus u (by simp)
    rw [Db.submitAll_append]
    show ∃ old, (u.submit now (TG.submitAll now us db)).Stored old ∧ _
    rw [Db.submit_eq hh.1 hh.2]
    rcases List.mem_append.mp hq with hq | hq
    · obtain ⟨old, ho, hpo, hge⟩ := ih (fun v hv => hus v (by simp [hv])) hq
      by_cases hb : old.SamePair u ∧ old.Before u
      · refine ⟨u, (Db.stored_update hh.1 huw).mpr (Or.inl ⟨rfl, ?_⟩), ?_, ?_⟩
        · intro x hx hpx
          rw [hh.1.stored_unique hx ho (hpx.1.trans hb.1.1.symm) (hpx.2.trans hb.1.2.symm)]
          exact hb.2
        · exact ⟨hb.1.1.symm.trans hpo.1, hb.1.2.symm.trans hpo.2⟩
        · intro h
          have := hb.2
          unfold TrustRelation.Before at h this hge
          omega
      · exact ⟨old, (Db.stored_update hh.1 huw).mpr (Or.inr ⟨ho, fun h h' => hb ⟨h, h'⟩⟩), hpo, hge⟩
    · rw [List.mem_singleton] at hq
      subst hq
      by_cases hall : ∀ old, (TG.submitAll now us db).Stored old → old.SamePair q → old.Before q
      · exact ⟨q, (Db.stored_update hh.1 huw).mpr (Or.inl ⟨rfl, hall⟩), ⟨rfl, rfl⟩,
          by unfold TrustRelation.Before; omega⟩
      · push Not at hall
        obtain ⟨old, ho, hpo, hge⟩ := hall
        exact ⟨old, (Db.stored_update hh.1 huw).mpr (Or.inr ⟨ho, fun _ => hge⟩), hpo, hge⟩

end Db

/-- **C24.** Submitting trusts and revocations (with whole-second times) one after the other to an empty database leaves, for every pair of
keys, the relation with the greatest issue time; of several with that time, the one submitted first: `r` is stored iff it was submitted at
a moment when everything submitted before for its pair was older, and nothing submitted later for its pair is newer. -/
theorem C24_latest_wins (now : Dur) (us : List TrustRelation) (hus : ∀ u ∈ us, u.Whole) (r : TrustRelation) :
    (submitAll now us ⟨[], [], []⟩).Stored r ↔
      ∃ pre post, us = pre ++ r :: post ∧
        (∀ q ∈ pre, q.SamePair r → q.Before r) ∧ (∀ q ∈ post, q.SamePair r → ¬ r.Before q) := by
  induction us using List.reverseRecOn generalizing r with
  | nil =>
    constructor
    · rintro ⟨-, h⟩; cases h
    · rintro ⟨pre, post, h, -⟩
      exact absurd h (by simp)
  | append_singleton us u ih =>
    have ih := fun r => ih (fun v hv => hus v (by simp [hv])) r
    have hh := (Db.healthy_init []).submitAll rfl now us
    have huw := hus u (by simp)
    rw [Db.submitAll_append]
    show (u.submit now (submitAll now us ⟨[], [], []⟩)).Stored r ↔ _
    rw [Db.submit_eq hh.1 hh.2, Db.stored_update hh.1 huw]
    constructor
    · rintro (⟨rfl, hall⟩ | ⟨hs, hne⟩)
      · refine ⟨us, [], by simp, ?_, by simp⟩
        -- the stored relation of the pair is at least as new as everything submitted for the pair
        intro q hq hp
        by_contra hnb
        -- among the submitted ones of the pair, take the stored one
        obtain ⟨old, ho, hpo, hge⟩ : ∃ old, (submitAll now us ⟨[], [], []⟩).Stored old ∧ old.SamePair q ∧ ¬ old.Before q := Db.exists_newest (Db.healthy_init []) rfl now (fun v hv => hus v (by simp [hv])) hq
        have := hall old ho ⟨hpo.1.trans hp.1, hpo.2.trans hp.2⟩
        unfold TrustRelation.Before at this hge hnb
        omega
      · obtain ⟨pre, post, rfl, h1, h2⟩ := (ih r).mp hs
        refine ⟨pre, post ++ [u], by simp, h1, ?_⟩
        intro q hq hp
        rcases List.mem_append.mp hq with hq | hq
        · exact h2 q hq hp
        · rw [List.mem_singleton] at hq
          subst hq
          exact hne ⟨hp.1.symm, hp.2.symm⟩
    · rintro ⟨pre, post, e, h1, h2⟩
      rcases List.eq_nil_or_concat post with rfl | ⟨post, v, rfl⟩
      · obtain ⟨rfl, e2⟩ := List.append_inj' e rfl
        cases e2
        refine Or.inl ⟨rfl, ?_⟩
        intro old ho hpo
        obtain ⟨p, q, e', -, -⟩ := (ih old).mp ho
        exact h1 old (by rw [e']; simp) hpo
      · have e' : us ++ [u] = (pre ++ r :: post) ++ [v] := by simpa using e
        obtain ⟨rfl, e2⟩ := List.append_inj' e' rfl
        cases e2
        refine Or.inr ⟨(ih r).mpr ⟨pre, post, rfl, h1, fun q hq => h2 q (by simp [hq])⟩, ?_⟩
        intro hp
        exact h2 u (by simp) ⟨hp.1.symm, hp.2.symm⟩

/-- **C25.** If the relations submitted for the same pair of keys all have different issue times, the order of submission does not matter. -/
theorem C25_order_irrelevant (now : Dur) {us vs : List TrustRelation} (hperm : us.Perm vs) (hus : ∀ u ∈ us, u.Whole)
    (hdiff : ∀ q ∈ us, ∀ r ∈ us, q.SamePair r → q.issuedAt.total = r.issuedAt.total → q = r) (r : TrustRelation) :
    (submitAll now us ⟨[], [], []⟩).Stored r ↔ (submitAll now vs ⟨[], [], []⟩).Stored r := by
  -- in both orders: `r` was submitted and is the newest of its pair
  have key : ∀ us : List TrustRelation, (∀ u ∈ us, u.Whole) →
      (∀ q ∈ us, ∀ r ∈ us, q.SamePair r → q.issuedAt.total = r.issuedAt.total → q = r) →
      ((submitAll now us ⟨[], [], []⟩).Stored r ↔ r ∈ us ∧ ∀ q ∈ us, q.SamePair r → ¬ r.Before q) := by
    intro us hus hdiff
    rw [C24_latest_wins now us hus]
    constructor
    · rintro ⟨pre, post, rfl, h1, h2⟩
      refine ⟨by simp, ?_⟩
      intro q hq hp hb
      rcases List.mem_append.mp hq with hq | hq
      · have := h1 q hq hp
        unfold TrustRelation.Before at hb this
        omega
      · rcases List.mem_cons.mp hq with rfl | hq
        · unfold TrustRelation.Before at hb
          omega
        · exact h2 q hq hp hb
    · rintro ⟨hr, hmax⟩
      obtain ⟨pre, post, rfl, hfirst⟩ := List.append_of_mem_first hr
      refine ⟨pre, post, rfl, ?_, fun q hq => hmax q (by simp [hq])⟩
      intro q hq hp
      have h1 := hmax q (by simp [hq]) hp
      by_contra h2
      have : q = r := hdiff q (by simp [hq]) r (by simp) hp (by unfold TrustRelation.Before at h1 h2; omega)
      exact hfirst (this ▸ hq)
  rw [key us hus hdiff, key vs (fun u hu => hus u (hperm.mem_iff.mpr hu))
    (fun q hq r hr => hdiff q (hperm.mem_iff.mpr hq) r (hperm.mem_iff.mpr hr)), hperm.mem_iff]
  constructor
  · rintro ⟨h1, h2⟩; exact ⟨h1, fun q hq => h2 q (hperm.mem_iff.mpr hq)⟩
  · rintro ⟨h1, h2⟩; exact ⟨h1, fun q hq => h2 q (hperm.mem_iff.mp hq)⟩

/-- **C26.** Submitting again, at once or after any other relations, a relation that was submitted before changes nothing at all. -/
theorem C26_idempotent {db : Db} (hh : db.Healthy) (hf : db.NoFaults) (now now' : Dur) {us : List TrustRelation}
    (hus : ∀ u ∈ us, u.Whole) {r : TrustRelation} (hr : r ∈ us) :
    r.submit now' (submitAll now us db) = submitAll now us db := by
  obtain ⟨old, ho, hp, hge⟩ := Db.exists_newest hh hf now hus hr
  have hh' := hh.submitAll hf now us
  rw [Db.submit_eq hh'.1 hh'.2]
  unfold Db.update
  rw [if_neg]
  intro hn
  exact hge ((Db.newer_iff' hh'.1).mp hn old ho hp)

/-- **C27.** While a revocation by A of B is stored, adding a trust from A to B that was issued at or before the revocation changes nothing,
whatever the outcome of the call: the tables stay as they are or as a query at the same time would leave them. -/
theorem C27_stale_trust_changes_nothing {db : Db} (hr : Reachable db) {r : Revocation} (hs : db.Stored (.revocation r))
    {t : Trust} (ht : t.issuedFor = r.pk) (hle : t.issuedAt.total ≤ r.revokedAt.total) (now : Dur) :
    let db' := (TrustGraph.addTrust t r.revokedBy now db).2
    db'.roots = db.roots ∧ (db'.relations = db.relations ∨ db'.relations = (db.collect now).relations) := by
  have hc : Collecting (fun s s' : Db => s.Healthy ∧ s.Stored (.revocation r) →
      (s'.Healthy ∧ s'.Stored (.revocation r)) ∧ s'.roots = s.roots ∧
        (s'.relations = s.relations ∨ s'.relations = (s.collect now).relations)) now := by
    refine ⟨⟨fun s h => ⟨h, rfl, Or.inl rfl⟩, ?_, fun s fs h => ⟨⟨h.1.faults fs, h.2⟩, rfl, Or.inl rfl⟩⟩,
      fun s h => ⟨⟨h.1.collect now, (Db.stored_collect now).mpr ⟨h.2, by simp⟩⟩, rfl, Or.inr rfl⟩⟩
    intro a b c hab hbc ha
    obtain ⟨hb, r1, e1⟩ := hab ha
    obtain ⟨hc, r2, e2⟩ := hbc hb
    refine ⟨hc, r2.trans r1, ?_⟩
    have hcc : ((a.collect now).collect now).relations = (a.collect now).relations :=
      congrArg Db.relations (Db.collect_collect_of_le (Int.le_refl _))
    unfold Db.collect at *
    rcases e1 with e1 | e1 <;> rcases e2 with e2 | e2 <;> simp_all
  have := TrustGraph.addTrust_steps hc t r.revokedBy (by
    rintro - s hn ⟨hh, hst⟩
    exfalso
    have h1 := (Db.newer_iff' hh).mp hn _ hst ⟨ht.symm, rfl⟩
    unfold TrustRelation.Before at h1
    exact absurd h1 (Nat.not_lt.mpr hle)) db ⟨hr.healthy, hs⟩
  exact this.2

/-- **C28**, for times below 2^63: garbage collection deletes exactly the trusts whose expiry is not after `now` (in whole seconds); revocations and
roots stay.  For larger expiry times it fails: `C31_far_future_fails`. -/
theorem C28_collects_exactly_expired_partial {db : Db} (hf : db.NoFaults) {now : Dur} (hnow : now.secs.toNat < 2 ^ 63) :
    ∃ db', Storage.removeExpired now db = (.ok (), db') ∧ db'.roots = db.roots ∧
      (∀ r, db'.Stored (.revocation r) ↔ db.Stored (.revocation r)) ∧
      ∀ a : Auth, a.trust.expiresAt.secs.toNat < 2 ^ 63 →
        (db'.Stored (.auth a) ↔ db.Stored (.auth a) ∧ now.secs.toNat < a.trust.expiresAt.secs.toNat) := by
  refine ⟨db.collect now, Db.removeExpired_eq hf now, rfl, ?_, ?_⟩
  · intro r
    rw [Db.stored_collect]
    simp
  · intro a ha
    rw [Db.stored_collect]
    simp [Spec.live_iff hnow ha]

/-- **C69**, below 2^63 seconds.  Collecting at two times is collecting once at the later one (in the database's order of times, which below 2^63 is the
usual order; otherwise it fails: `C69_collect_composes_fails`),
in whichever order; in particular collection is idempotent and commutes. -/
theorem C69_collect_composes_partial {db : Db} (hf : db.NoFaults) {t1 t2 : Dur} (h : asI64 t1.secs ≤ asI64 t2.secs) :
    ∃ d1 d2, Storage.removeExpired t1 db = (.ok (), d1) ∧ Storage.removeExpired t2 db = (.ok (), d2) ∧
      Storage.removeExpired t2 d1 = (.ok (), d2) ∧ Storage.removeExpired t1 d2 = (.ok (), d2) ∧
      Storage.removeExpired t2 d2 = (.ok (), d2) := by
  have e1 : (db.collect t1).collect t2 = db.collect t2 := Db.collect_collect_of_le h
  have e2 : (db.collect t2).collect t1 = db.collect t2 := Db.collect_collect_of_le' h
  have e3 : (db.collect t2).collect t2 = db.collect t2 := Db.collect_collect_of_le (Int.le_refl _)
  refine ⟨db.collect t1, db.collect t2, Db.removeExpired_eq hf t1, Db.removeExpired_eq hf t2, ?_, ?_, ?_⟩
  · exact (Db.removeExpired_eq (hf.collect t1) t2).trans (by rw [e1])
  · exact (Db.removeExpired_eq (hf.collect t2) t1).trans (by rw [e2])
  · exact (Db.removeExpired_eq (hf.collect t2) t2).trans (by rw [e3])

omit [Env] in
/-- **C69**: the order of times used by the database. -/
theorem C69_ordinary_times {t1 t2 : Dur} (h : t1.total ≤ t2.total) (h2 : t2.secs.toNat < 2 ^ 63) :
    asI64 t1.secs ≤ asI64 t2.secs := by
  have n1 := t1.nanos.isLt
  have n2 := t2.nanos.isLt
  unfold Dur.total at h
  rw [asI64_le_iff (by omega) h2]
  omega

/-- **C32.** Every relation that is inserted is read back as it was, up to fractions of seconds, which the database does not keep; and no row of a
reachable database is unreadable. -/
theorem C32_rows_roundtrip {db : Db} (hh : db.Healthy) (hf : db.NoFaults) (r : TrustRelation) :
    ∃ db', Storage.insert r db = (.ok (), db') ∧
      Storage.getRelation r.issuedFor r.issuedBy db' = (.ok (some r.trunc), db') ∧ (r.Whole → r.trunc = r) := by
  refine ⟨db.put r, Db.insert_eq hf r, ?_, fun h => h.trunc_eq⟩
  have hs : (db.put r).Stored r.trunc := Db.stored_put.mpr (Or.inl rfl)
  have := Db.getRelation_eq_some (hh.put r) (show (db.put r).NoFaults from hf) hs
  rw [TrustRelation.trunc_issuedFor, TrustRelation.trunc_issuedBy] at this
  exact this

theorem C32_every_row_readable {db : Db} (hr : Reachable db) :
    ∀ row ∈ db.relations, ∃ r, parseRelation row = .ok r ∧ toRow r = row := by
  intro row hrow
  obtain ⟨r, hs, rfl⟩ := Db.stored_of_row hr.healthy hrow
  exact ⟨r, by rw [parseRelation_toRow, hs.1.trunc_eq], rfl⟩

/-- **C33.** At any point of any history every stored trust and revocation carries a signature that the key recorded as its issuer accepts. -/
theorem C33_stored_is_verified {db : Db} (hr : Reachable db) :
    (∀ a : Auth, db.Stored (.auth a) →
      a.issuedBy.verify (Trust.signatureBytes a.trust.issuedFor a.trust.expiresAt a.trust.issuedAt) a.trust.signature
        = .ok ()) ∧
    (∀ r : Revocation, db.Stored (.revocation r) → r.verify = .ok ()) := by
  refine ⟨fun a h => hr.verified _ h, fun r h => ?_⟩
  have := hr.verified _ h
  unfold Revocation.verify
  rw [show r.revokedBy.verify (Revocation.signatureBytes r.pk r.revokedAt) r.signature = .ok () from this]
  rfl

/-- **C37.** `get_revocations(pk)` returns exactly the stored revocations of `pk`, each once. -/
theorem C37_revocations_exact {db db' : Db} {pk : PublicKey} {rs : List Revocation} (hh : db.Healthy)
    (h : TrustGraph.getRevocations pk db = (.ok rs, db')) :
    rs.Nodup ∧ ∀ r, r ∈ rs ↔ db.Stored (.revocation r) ∧ r.pk = pk := by
  have h1 := (TrustGraph.getRevocations_transparent pk).ok h
  have h2 : TrustGraph.getRevocations pk db.calm = (.ok (db.calm.view.revs pk), db.calm) :=
    Search.storage_ok ((Db.reads hh.calm (Db.calm_noFaults db)).revs pk)
  rw [h2] at h1
  cases (Prod.ext_iff.mp h1).1
  exact ⟨Db.view_revs_nodup hh.calm pk, fun r => Db.mem_view_revs hh.calm⟩

end TG
