/-
Importing certificates.
-/
import Verif.Spec.Import
import Verif.Props.Relations

namespace TG
variable [Env]

namespace Spec

theorem edge_zero {ts : List Trust} {t : Trust} (h : ts[0]? = some t) : (issuers ts)[0]? = some t.issuedFor := by
  rcases ts with _ | ⟨a, ts⟩
  · cases h
  · cases h; rfl

theorem issuers_get {ts : List Trust} {i : Nat} {k : PublicKey} (h : (issuers ts)[i]? = some k) :
    ∃ a, ts[i - 1]? = some a ∧ a.issuedFor = k := by
  have hi : i < ts.length := by
    have := (List.getElem?_eq_some_iff.mp h).1
    rwa [issuers_length] at this
  rcases i with _ | i
  · obtain ⟨t, ht⟩ : ∃ t, ts[0]? = some t := ⟨ts[0], List.getElem?_eq_getElem hi⟩
    rw [edge_zero ht] at h
    exact ⟨t, ht, Option.some.inj h⟩
  · have ha : ts[i]? = some ts[i] := List.getElem?_eq_getElem (by omega)
    rw [issuers_succ ha hi] at h
    exact ⟨_, ha, Option.some.inj h⟩

/-- Different trusts of a chain belong to different pairs of keys. -/
theorem edge_index_unique {ts : List Trust} (hn : NoRevisit ts) {i j : Nat} {k k' : PublicKey} {t t' : Trust}
    (hi : (issuers ts)[i]? = some k) (hti : ts[i]? = some t) (hj : (issuers ts)[j]? = some k') (htj : ts[j]? = some t')
    (hk : k = k') (ht : t.issuedFor = t'.issuedFor) : i = j := by
  rcases Nat.lt_trichotomy i j with hlt | h | hlt
  · exfalso
    obtain ⟨h0, e⟩ := hn i j t t' hlt hti htj ht
    obtain ⟨a, ha, ea⟩ := issuers_get hi
    obtain ⟨b, hb, eb⟩ := issuers_get hj
    subst e
    rw [Nat.add_sub_cancel, hti] at hb
    cases hb
    have := hn (i - 1) (i + 1) a t' (by omega) ha htj (by rw [ea, hk, ← eb, ht])
    omega
  · exact h
  · exfalso
    obtain ⟨h0, e⟩ := hn j i t' t hlt htj hti ht.symm
    obtain ⟨a, ha, ea⟩ := issuers_get hj
    obtain ⟨b, hb, eb⟩ := issuers_get hi
    subst e
    rw [Nat.add_sub_cancel, htj] at hb
    cases hb
    have := hn (j - 1) (j + 1) a t (by omega) ha hti (by rw [ea, ← hk, ← eb, ht])
    omega

end Spec

namespace Db
variable {db : Db}

/-- Storing something newer than what is there, or what is there. -/
theorem stored_update_fresh (hh : db.Healthy) {e : TrustRelation} (hw : e.Whole)
    (hf : ∀ r, db.Stored r → r.SamePair e → r = e ∨ r.Before e) {q : TrustRelation} :
    (db.update e).Stored q ↔ q = e ∨ (db.Stored q ∧ ¬ q.SamePair e) := by
  rw [stored_update hh hw]
  have hirr : ¬ e.Before e := Nat.lt_irrefl _
  constructor
  · rintro (⟨rfl, -⟩ | ⟨hs, h⟩)
    · exact .inl rfl
    · by_cases hp : q.SamePair e
      · rcases hf q hs hp with rfl | hb
        · exact .inl rfl
        · exact absurd hb (h hp)
      · exact .inr ⟨hs, hp⟩
  · rintro (rfl | ⟨hs, hp⟩)
    · by_cases h : ∀ old, db.Stored old → old.SamePair q → old.Before q
      · exact .inl ⟨rfl, h⟩
      · push Not at h
        obtain ⟨old, ho, hp, hb⟩ := h
        rcases hf old ho hp with rfl | hb'
        · exact .inr ⟨ho, fun _ => hirr⟩
        · exact absurd hb' hb
    · exact .inr ⟨hs, fun h => absurd h hp⟩

end Db

/-- The database while the first `n` trusts of a certificate have been imported. -/
structure Importing (db : Db) (c : Certificate) (now : Dur) (n : Nat) (d : Db) : Prop where
  healthy : d.Healthy
  noFaults : d.NoFaults
  roots : d.roots = db.roots
  length : d.relations.length ≤ db.relations.length + n
  collected : ∀ r, (d.collect now).Stored r ↔
    (∃ i k t, i < n ∧ (Spec.issuers c.chain)[i]? = some k ∧ c.chain[i]? = some t ∧ r = .auth ⟨t, k⟩) ∨
    ((db.collect now).Stored r ∧
      ∀ i k t, i < n → (Spec.issuers c.chain)[i]? = some k → c.chain[i]? = some t → ¬ r.SamePair (.auth ⟨t, k⟩))
  stored : 0 < n → ∀ r, d.Stored r ↔ (d.collect now).Stored r

namespace Importing
variable {db d : Db} {c : Certificate} {now : Dur} {n : Nat}

theorem start (hh : db.Healthy) (hf : db.NoFaults) : Importing db c now 0 db where
  healthy := hh
  noFaults := hf
  roots := rfl
  length := Nat.le_refl _
  collected r := by simp
  stored h := absurd h (Nat.lt_irrefl 0)

theorem edge_stored (h : Importing db c now n d) {i : Nat} {k : PublicKey} {t : Trust} (hi : i < n)
    (hk : (Spec.issuers c.chain)[i]? = some k) (ht : c.chain[i]? = some t) : (d.collect now).Stored (.auth ⟨t, k⟩) :=
  (h.collected _).mpr (.inl ⟨i, k, t, hi, hk, ht, rfl⟩)

theorem not_revoked (h : Importing db c now n d) (hc : Spec.Importable db c now) {i j : Nat} {a b : Trust} (hij : i < j) (hj : j < n)
    (ha : c.chain[i]? = some a) (hb : c.chain[j]? = some b) : ¬ (d.snapshot now).revoked a.issuedFor b.issuedFor := by
  rintro ⟨r, hr, h1, h2⟩
  have hr' : (d.collect now).Stored (.revocation r) := (Db.stored_collect now).mpr ⟨hr, by simp⟩
  by_cases e : i + 1 = j
  · subst e
    have hjl : i + 1 < c.chain.length := (List.getElem?_eq_some_iff.mp hb).1
    have hs := h.edge_stored hj (Spec.issuers_succ ha hjl) hb
    have := (h.healthy.collect now).stored_unique hr' hs h2 h1
    cases this
  · rcases (h.collected _).mp hr' with ⟨_, _, _, _, _, _, e⟩ | ⟨hs, -⟩
    · cases e
    · exact hc.unrevoked i j a b (by omega) ha hb ⟨r, ((Db.stored_collect now).mp hs).1, h1, h2⟩

/-- The imported part is a certificate. -/
theorem admissible (h : Importing db c now n d) (hc : Spec.Importable db c now) {t : Trust} (hn : 2 ≤ n)
    (ht : c.chain[n - 1]? = some t) : Spec.Admissible (d.snapshot now) t.issuedFor ⟨c.chain.take n⟩ := by
  have hlt : n - 1 < c.chain.length := (List.getElem?_eq_some_iff.mp ht).1
  have hget : ∀ (j : Nat) a, (c.chain.take n)[j]? = some a → j < n ∧ c.chain[j]? = some a := by
    intro j a h
    rw [List.getElem?_take] at h
    split at h
    · exact ⟨‹_›, h⟩
    · cases h
  have hlen : (c.chain.take n).length = n := by rw [List.length_take]; omega
  have htr : ∀ {i : Nat} {k : PublicKey} {t : Trust}, i < n → (Spec.issuers c.chain)[i]? = some k → c.chain[i]? = some t →
      (d.snapshot now).trusted k t := by
    intro i k t hi hk ht
    have hs := h.edge_stored hi hk ht
    exact ⟨((Db.stored_collect now).mp hs).1, hc.live t (List.mem_of_getElem? ht)⟩
  refine ⟨⟨?_, ?_, ?_, ?_⟩, ?_, ?_⟩
  · show 2 ≤ (c.chain.take n).length
    omega
  · intro a ha
    obtain ⟨-, ha⟩ := hget 0 a ha
    obtain ⟨f, hf, -⟩ := hc.root a ha
    refine ⟨?_, htr (by omega) (Spec.edge_zero ha) ha⟩
    have := Db.rootFactor_isSome.mp (show (db.rootFactor a.issuedFor).isSome by rw [hf]; rfl)
    rw [← h.roots] at this
    exact this
  · intro i a b ha hb
    obtain ⟨-, ha⟩ := hget _ a ha
    obtain ⟨hi, hb⟩ := hget _ b hb
    exact htr hi (Spec.issuers_succ ha (List.getElem?_eq_some_iff.mp hb).1) hb
  · intro a ha
    dsimp only at ha
    rw [hlen] at ha
    obtain ⟨-, ha⟩ := hget _ a ha
    rw [ht] at ha
    cases ha
    rfl
  · exact fun i j a b hij ha hb e => hc.noRevisit i j a b hij (hget _ _ ha).2 (hget _ _ hb).2 e
  · intro i j a b hij ha hb _
    exact h.not_revoked hc hij (hget _ _ hb).1 (hget _ _ ha).2 (hget _ _ hb).2

theorem rootFactor (h : Importing db c now n d) (k : PublicKey) : d.rootFactor k = db.rootFactor k :=
  Db.rootFactor_congr h.roots k

/-- The issuer of the next trust has enough weight. -/
theorem next_weight (h : Importing db c now n d) (hc : Spec.Importable db c now) {k : PublicKey} {t : Trust}
    (hk : (Spec.issuers c.chain)[n]? = some k) (ht : c.chain[n]? = some t) {w : Nat}
    (hw : IsGreatest (Spec.weights d k now) w) : (if k = t.issuedFor then w else w / 2) ≠ 0 := by
  have hlt : n < c.chain.length := (List.getElem?_eq_some_iff.mp ht).1
  obtain ⟨t0, ht0⟩ : ∃ t0, c.chain[0]? = some t0 := ⟨c.chain[0], List.getElem?_eq_getElem (by omega)⟩
  obtain ⟨f, hf, hlen⟩ := hc.root t0 ht0
  have hroot : k = t0.issuedFor → 2 ^ (16 - f) ≤ w := by
    rintro rfl
    exact hw.2 (.inr (.inl ⟨f, by rw [h.rootFactor, hf], rfl⟩))
  have h1 : ∀ m, 1 ≤ m → 2 ^ m ≤ w → 2 ≤ w := fun m hm h =>
    Nat.le_trans (by simpa using Nat.pow_le_pow_right (show 0 < 2 by omega) hm) h
  rcases n with _ | n
  · rw [Spec.edge_zero ht0] at hk
    rw [ht0] at ht
    cases ht
    cases hk
    rw [if_pos rfl]
    have := hroot rfl
    have : 0 < 2 ^ (16 - f) := Nat.pow_pos (by omega)
    omega
  · obtain ⟨a, ha, ea⟩ := Spec.issuers_get hk
    rw [Nat.add_sub_cancel] at ha
    have h2 : 2 ≤ w := by
      rcases n with _ | n
      · rw [ht0] at ha
        cases ha
        exact h1 _ (by omega) (hroot ea.symm)
      · have hadm := h.admissible hc (by omega) (t := a) (by simpa using ha)
        rw [ea] at hadm
        have hle := hw.2 (.inr (.inr ⟨_, hadm, rfl⟩))
        rcases hch : c.chain with _ | ⟨x, xs⟩
        · rw [hch] at hlt; simp at hlt
        rw [hch] at ht0 hlen hlt hle
        cases ht0
        unfold Db.certWeight at hle
        simp only [List.take_succ_cons, h.rootFactor, hf, List.length_take] at hle
        simp only [List.length_cons] at hlen hlt
        exact h1 _ (by omega) hle
    split <;> omega

/-- One more trust. -/
theorem step (h : Importing db c now n d) (hc : Spec.Importable db c now)
    (hn : db.relations.length + c.chain.length + 16 < 2 ^ 32) {k : PublicKey} {t : Trust}
    (hk : (Spec.issuers c.chain)[n]? = some k) (ht : c.chain[n]? = some t) :
    ∃ w d', TrustGraph.addTrust t k now d = (.ok w, d') ∧ Importing db c now (n + 1) d' := by
  have hlt : n < c.chain.length := (List.getElem?_eq_some_iff.mp ht).1
  have hmem := List.mem_of_getElem? ht
  have hl := h.length
  obtain ⟨w, hw, hg⟩ := Db.weight_spec h.healthy h.noFaults (by omega) k now
  have hv : t.verify k now = .ok () := hc.valid k t ⟨n, hk, ht⟩
  have hadd := Db.addTrust_eq h.healthy h.noFaults hv hw
  have hne := h.next_weight hc hk ht hg
  rw [if_neg hne] at hadd
  have hhd := h.healthy.collect now
  have hwhole : (TrustRelation.auth ⟨t, k⟩).Whole := ⟨(hc.whole t hmem).2, (hc.whole t hmem).1⟩
  have hfresh : ∀ r, (d.collect now).Stored r → r.SamePair (.auth ⟨t, k⟩) →
      r = .auth ⟨t, k⟩ ∨ r.Before (.auth ⟨t, k⟩) := by
    intro r hr hp
    rcases (h.collected r).mp hr with ⟨i, k', t', hi, hk', ht', rfl⟩ | ⟨hs, -⟩
    · have := Spec.edge_index_unique hc.noRevisit hk' ht' hk ht hp.2 hp.1
      omega
    · exact hc.fresh k t ⟨n, hk, ht⟩ r ((Db.stored_collect now).mp hs).1 hp
  have hst : ∀ q, ((d.collect now).update (.auth ⟨t, k⟩)).Stored q ↔
      q = .auth ⟨t, k⟩ ∨ ((d.collect now).Stored q ∧ ¬ q.SamePair (.auth ⟨t, k⟩)) :=
    fun q => Db.stored_update_fresh hhd hwhole hfresh
  have hcol : ∀ q, (((d.collect now).update (.auth ⟨t, k⟩)).collect now).Stored q ↔
      ((d.collect now).update (.auth ⟨t, k⟩)).Stored q := by
    intro q
    rw [Db.stored_collect]
    refine ⟨fun h => h.1, fun hq => ⟨hq, ?_⟩⟩
    rintro a rfl
    rcases (hst _).mp hq with e | ⟨hs, -⟩
    · cases e
      exact hc.live t hmem
    · exact ((Db.stored_collect now).mp hs).2 a rfl
  refine ⟨_, _, hadd, ⟨hhd.update _, (h.noFaults.collect now).update _, ?_, ?_, ?_, fun _ q => (hcol q).symm⟩⟩
  · rw [Db.update_roots]; exact h.roots
  · have h1 := Db.collect_length_le d now
    have h2 : ((d.collect now).update (.auth ⟨t, k⟩)).relations.length ≤ (d.collect now).relations.length + 1 := by
      unfold Db.update
      split
      · unfold Db.put
        rw [List.length_append, List.length_singleton]
        exact Nat.add_le_add_right (List.length_filter_le _ _) 1
      · omega
    omega
  · intro q
    rw [hcol, hst, h.collected]
    constructor
    · rintro (rfl | ⟨⟨i, k', t', hi, hk', ht', rfl⟩ | ⟨hs, hno⟩, hne⟩)
      · exact .inl ⟨n, k, t, by omega, hk, ht, rfl⟩
      · exact .inl ⟨i, k', t', by omega, hk', ht', rfl⟩
      · refine .inr ⟨hs, fun i k' t' hi hk' ht' => ?_⟩
        rcases Nat.lt_succ_iff_lt_or_eq.mp hi with hi | rfl
        · exact hno i k' t' hi hk' ht'
        · rw [hk] at hk'; rw [ht] at ht'
          cases hk'; cases ht'
          exact hne
    · rintro (⟨i, k', t', hi, hk', ht', rfl⟩ | ⟨hs, hno⟩)
      · rcases Nat.lt_succ_iff_lt_or_eq.mp hi with hi | rfl
        · refine .inr ⟨.inl ⟨i, k', t', hi, hk', ht', rfl⟩, fun hp => ?_⟩
          have := Spec.edge_index_unique hc.noRevisit hk' ht' hk ht hp.2 hp.1
          omega
        · rw [hk] at hk'; rw [ht] at ht'
          cases hk'; cases ht'
          exact .inl rfl
      · exact .inr ⟨.inr ⟨hs, fun i k' t' hi => hno i k' t' (by omega)⟩, hno n k t (by omega) hk ht⟩

/-- The remaining trusts. -/
theorem loop (hc : Spec.Importable db c now) (hn : db.relations.length + c.chain.length + 16 < 2 ^ 32) (suf : List Trust) :
    ∀ (n : Nat) (d : Db) (k : PublicKey), Importing db c now n d → c.chain.drop n = suf → n ≤ c.chain.length →
      (∀ k', (Spec.issuers c.chain)[n]? = some k' → k = k') →
      ∃ d', TrustGraph.addLoop now k suf d = (.ok (), d') ∧ Importing db c now c.chain.length d' := by
  induction suf with
  | nil =>
    intro n d k h hs hle _
    have : n = c.chain.length := by
      have := congrArg List.length hs
      simp only [List.length_drop, List.length_nil] at this
      omega
    subst this
    exact ⟨d, rfl, h⟩
  | cons t ts ih =>
    intro n d k h hs hle hk
    have ht : c.chain[n]? = some t := by
      have := congrArg (·[0]?) hs
      simpa using this
    have hlt : n < c.chain.length := (List.getElem?_eq_some_iff.mp ht).1
    obtain ⟨k', hk'⟩ : ∃ k', (Spec.issuers c.chain)[n]? = some k' :=
      ⟨_, List.getElem?_eq_getElem (by rw [Spec.issuers_length]; exact hlt)⟩
    obtain rfl := hk k' hk'
    obtain ⟨w, d', hadd, hd'⟩ := h.step hc hn hk' ht
    obtain ⟨d'', hloop, hd''⟩ := ih (n + 1) d' t.issuedFor hd'
      (by rw [← List.drop_drop, hs]; rfl) (by omega)
      (fun k' hk' => by
        have hl : n + 1 < c.chain.length := by
          have := (List.getElem?_eq_some_iff.mp hk').1
          rwa [Spec.issuers_length] at this
        rw [Spec.issuers_succ ht hl] at hk'
        exact Option.some.inj hk')
    refine ⟨d'', ?_, hd''⟩
    unfold TrustGraph.addLoop
    rw [M.bind_run_ok hadd]
    exact hloop

end Importing

/-- An importable certificate is imported. -/
theorem import_add {db : Db} {c : Certificate} {now : Dur} (hh : db.Healthy) (hf : db.NoFaults) (hc : Spec.Importable db c now)
    (hn : db.relations.length + c.chain.length + 16 < 2 ^ 32) :
    ∃ d, TrustGraph.add c now db = (.ok (), d) ∧ Importing db c now c.chain.length d := by
  rcases hch : c.chain with _ | ⟨t, ts⟩
  · have := hc.long; rw [hch] at this; simp at this
  obtain ⟨d, h1, h2⟩ := Importing.loop hc hn c.chain 0 db t.issuedFor (.start hh hf) rfl (by omega)
    (fun k' hk' => by rw [hch] at hk'; exact Option.some.inj hk')
  refine ⟨d, ?_, by rw [hch] at h2; exact h2⟩
  unfold TrustGraph.add
  rw [hch] at h1 ⊢
  exact h1

end TG
