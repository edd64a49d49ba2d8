/-
How certificates and weights change with the graph: helper lemmas.
-/
import Verif.Spec.Keys
import Verif.Proofs.Update

namespace TG
variable [Env]

namespace Spec

theorem keys_getElem? {ts : List Trust} {i : Nat} {k : PublicKey} :
    (ts.map (·.issuedFor))[i]? = some k ↔ ∃ t, ts[i]? = some t ∧ t.issuedFor = k := by
  rw [List.getElem?_map, Option.map_eq_some_iff]

/-- `NoRevisit` depends only on the keys. -/
theorem noRevisit_iff {ts : List Trust} : NoRevisit ts ↔
    ∀ (i j : Nat) k, i < j → (ts.map (·.issuedFor))[i]? = some k → (ts.map (·.issuedFor))[j]? = some k →
      0 < i ∧ j = i + 1 := by
  constructor
  · intro h i j k hij hi hj
    obtain ⟨a, ha, rfl⟩ := keys_getElem?.mp hi
    obtain ⟨b, hb, e⟩ := keys_getElem?.mp hj
    exact h i j a b hij ha hb e.symm
  · intro h i j a b hij ha hb e
    exact h i j _ hij (keys_getElem?.mpr ⟨a, ha, rfl⟩) (keys_getElem?.mpr ⟨b, hb, e.symm⟩)

theorem unrevokedExcept_iff {g : Snapshot} {ts : List Trust} : UnrevokedExceptLastIssuer g ts ↔
    ∀ (i j : Nat) k l, i < j → (ts.map (·.issuedFor))[i]? = some k → (ts.map (·.issuedFor))[j]? = some l →
      j + 2 ≠ (ts.map (·.issuedFor)).length → ¬ g.revoked k l := by
  rw [List.length_map]
  constructor
  · intro h i j k l hij hi hj
    obtain ⟨a, ha, rfl⟩ := keys_getElem?.mp hi
    obtain ⟨b, hb, rfl⟩ := keys_getElem?.mp hj
    exact h i j a b hij ha hb
  · intro h i j a b hij ha hb
    exact h i j _ _ hij (keys_getElem?.mpr ⟨a, ha, rfl⟩) (keys_getElem?.mpr ⟨b, hb, rfl⟩)

theorem issuers_length (ts : List Trust) : (issuers ts).length = ts.length := by
  cases ts with
  | nil => rfl
  | cons t ts => simp [issuers]

theorem issuers_zero (t : Trust) (ts : List Trust) : (issuers (t :: ts))[0]? = some t.issuedFor := rfl

theorem issuers_succ {ts : List Trust} {i : Nat} {a : Trust} (ha : ts[i]? = some a) (hi : i + 1 < ts.length) :
    (issuers ts)[i + 1]? = some a.issuedFor := by
  rcases ts with _ | ⟨t, ts⟩
  · simp at hi
  · rw [issuers, List.getElem?_cons_succ, List.getElem?_map, List.getElem?_dropLast, if_pos (by omega), ha]
    rfl

/-- Every edge of `g` is also in `g'`, possibly as another trust; there are no new revocations. -/
structure SnapLe (g g' : Snapshot) : Prop where
  root : ∀ k, g.root k → g'.root k
  trusted : ∀ by' t, g.trusted by' t → ∃ t', g'.trusted by' t' ∧ t'.issuedFor = t.issuedFor
  revoked : ∀ a b, g'.revoked a b → g.revoked a b

theorem SnapLe.refl (g : Snapshot) : SnapLe g g :=
  ⟨fun _ h => h, fun _ t h => ⟨t, h, rfl⟩, fun _ _ h => h⟩

theorem SnapLe.trans {g g' g'' : Snapshot} (h : SnapLe g g') (h' : SnapLe g' g'') : SnapLe g g'' :=
  ⟨fun k hk => h'.root k (h.root k hk),
    fun by' t ht => by
      obtain ⟨t', ht', e⟩ := h.trusted by' t ht
      obtain ⟨t'', ht'', e'⟩ := h'.trusted by' t' ht'
      exact ⟨t'', ht'', e'.trans e⟩,
    fun a b hr => h.revoked a b (h'.revoked a b hr)⟩

theorem Admissible.lift {g g' : Snapshot} (h : SnapLe g g') {target : PublicKey} {c : Certificate}
    (hc : Admissible g target c) : ∃ c', Admissible g' target c' ∧ c'.keys = c.keys := by
  classical
  let f : PublicKey → Trust → Trust := fun k t =>
    if ht : g.trusted k t then (h.trusted k t ht).choose else t
  have hf : ∀ k t, (f k t).issuedFor = t.issuedFor := by
    intro k t
    show (if ht : g.trusted k t then (h.trusted k t ht).choose else t).issuedFor = _
    split
    · rename_i ht; exact (h.trusted k t ht).choose_spec.2
    · rfl
  have hf' : ∀ k t, g.trusted k t → g'.trusted k (f k t) := by
    intro k t ht
    show g'.trusted k (if ht : g.trusted k t then (h.trusted k t ht).choose else t)
    rw [dif_pos ht]
    exact (h.trusted k t ht).choose_spec.1
  let ts := List.zipWith f (issuers c.chain) c.chain
  have hget : ∀ (i : Nat) t', ts[i]? = some t' →
      ∃ k t, (issuers c.chain)[i]? = some k ∧ c.chain[i]? = some t ∧ t' = f k t := by
    intro i t' ht'
    rw [List.getElem?_zipWith] at ht'
    split at ht'
    · rename_i h1 h2
      exact ⟨_, _, h1, h2, (Option.some.inj ht').symm⟩
    · cases ht'
  have hkeys : ts.map (·.issuedFor) = c.chain.map (·.issuedFor) := by
    apply List.ext_getElem?
    intro i
    rw [List.getElem?_map, List.getElem?_map, List.getElem?_zipWith]
    rcases hi : c.chain[i]? with _ | t
    · simp
    · have : i < (issuers c.chain).length := by
        rw [issuers_length]; exact (List.getElem?_eq_some_iff.mp hi).1
      rw [List.getElem?_eq_getElem this]
      simp [hf]
  have hlen : ts.length = c.chain.length := by simpa using congrArg List.length hkeys
  refine ⟨⟨ts⟩, ⟨⟨?_, ?_, ?_, ?_⟩, ?_, ?_⟩, hkeys⟩
  · exact hlen ▸ hc.linked.long
  · intro t' ht'
    obtain ⟨k, t, hk, ht, rfl⟩ := hget 0 t' ht'
    rcases hch : c.chain with _ | ⟨t0, rest⟩
    · rw [hch] at ht; cases ht
    · rw [hch] at hk ht
      have e1 : t0.issuedFor = k := Option.some.inj hk
      have e2 : t0 = t := Option.some.inj ht
      subst e1 e2
      have := hc.linked.root t0 (by rw [hch]; rfl)
      rw [hf]
      exact ⟨h.root _ this.1, hf' _ _ this.2⟩
  · intro i a' b' ha' hb'
    obtain ⟨k, a, _, ha, rfl⟩ := hget i a' ha'
    obtain ⟨k', b, hk', hb, rfl⟩ := hget (i + 1) b' hb'
    rw [issuers_succ ha (List.getElem?_eq_some_iff.mp hb).1] at hk'
    cases hk'
    rw [hf]
    exact hf' _ _ (hc.linked.link i a b ha hb)
  · intro t' ht'
    dsimp only at ht'
    rw [hlen] at ht'
    obtain ⟨k, t, _, ht, rfl⟩ := hget _ t' ht'
    rw [hf]
    exact hc.linked.target t ht
  · show NoRevisit ts
    rw [noRevisit_iff, hkeys, ← noRevisit_iff]
    exact hc.noRevisit
  · show UnrevokedExceptLastIssuer g' ts
    rw [unrevokedExcept_iff, hkeys]
    intro i j k l hij hi hj hlast hr
    exact unrevokedExcept_iff.mp hc.unrevoked i j k l hij hi hj hlast (h.revoked _ _ hr)

/-- Fewer trusts and more revocations: fewer certificates. -/
theorem Admissible.mono {g g' : Snapshot} (hroot : ∀ k, g.root k → g'.root k)
    (htrusted : ∀ by' t, g.trusted by' t → g'.trusted by' t) (hrev : ∀ a b, g'.revoked a b → g.revoked a b)
    {target : PublicKey} {c : Certificate} (hc : Admissible g target c) : Admissible g' target c where
  linked := {
    long := hc.linked.long
    root := fun t ht => ⟨hroot _ (hc.linked.root t ht).1, htrusted _ _ (hc.linked.root t ht).2⟩
    link := fun i a b ha hb => htrusted _ _ (hc.linked.link i a b ha hb)
    target := hc.linked.target }
  noRevisit := hc.noRevisit
  unrevoked := fun i j a b hij ha hb hl hr => hc.unrevoked i j a b hij ha hb hl (hrev _ _ hr)

theorem Admissible.append {g : Snapshot} {k : PublicKey} {c : Certificate} {t : Trust} (hun : Unrevoked g c.chain)
    (hrev : ∀ a ∈ c.keys, ¬ g.revoked a t.issuedFor) (hc : Admissible g k c) (ht : g.trusted k t) (hnew : t.issuedFor ∉ c.keys) :
    Admissible g t.issuedFor ⟨c.chain ++ [t]⟩ where
  linked := {
    long := by
      have := hc.linked.long
      simp only [List.length_append, List.length_singleton]
      omega
    root := fun a ha => by
      have := hc.linked.long
      rw [List.getElem?_append_left (by omega)] at ha
      exact hc.linked.root a ha
    link := fun i a b ha hb => by
      dsimp only at ha hb
      have hi : i + 1 < (c.chain ++ [t]).length := (List.getElem?_eq_some_iff.mp hb).1
      simp only [List.length_append, List.length_singleton] at hi
      rw [List.getElem?_append_left (by omega)] at ha
      by_cases h : i + 1 < c.chain.length
      · rw [List.getElem?_append_left h] at hb
        exact hc.linked.link i a b ha hb
      · have e : i = c.chain.length - 1 := by omega
        rw [List.getElem?_append_right (by omega), show i + 1 - c.chain.length = 0 by omega] at hb
        cases hb
        rw [e] at ha
        rw [hc.linked.target a ha]
        exact ht
    target := fun a ha => by
      simp at ha
      rw [ha] }
  noRevisit := fun i j a b hij ha hb e => by
    dsimp only at ha hb
    have hj : j < (c.chain ++ [t]).length := (List.getElem?_eq_some_iff.mp hb).1
    simp only [List.length_append, List.length_singleton] at hj
    rw [List.getElem?_append_left (by omega)] at ha
    by_cases h : j < c.chain.length
    · rw [List.getElem?_append_left h] at hb
      exact hc.noRevisit i j a b hij ha hb e
    · rw [List.getElem?_append_right (by omega), show j - c.chain.length = 0 by omega] at hb
      cases hb
      exact absurd (List.mem_map.mpr ⟨a, List.mem_of_getElem? ha, e⟩) hnew
  unrevoked := fun i j a b hij ha hb _ => by
    dsimp only at ha hb
    have hj : j < (c.chain ++ [t]).length := (List.getElem?_eq_some_iff.mp hb).1
    simp only [List.length_append, List.length_singleton] at hj
    rw [List.getElem?_append_left (by omega)] at ha
    by_cases h : j < c.chain.length
    · rw [List.getElem?_append_left h] at hb
      exact hun i j a b hij ha hb
    · rw [List.getElem?_append_right (by omega), show j - c.chain.length = 0 by omega] at hb
      cases hb
      exact hrev _ (List.mem_map.mpr ⟨a, List.mem_of_getElem? ha, rfl⟩)

theorem Admissible.take {g : Snapshot} {k : PublicKey} {c : Certificate} {t : Trust} (hun : Unrevoked g c.chain)
    {i : Nat} (hc : Admissible g k c) (ht : c.chain[i]? = some t) (hi : 1 ≤ i) :
    Admissible g t.issuedFor ⟨c.chain.take (i + 1)⟩ := by
  have hlt : i < c.chain.length := (List.getElem?_eq_some_iff.mp ht).1
  have hget : ∀ (j : Nat) a, (c.chain.take (i + 1))[j]? = some a → c.chain[j]? = some a := by
    intro j a h
    rw [List.getElem?_take] at h
    split at h
    · exact h
    · cases h
  have hlen : (c.chain.take (i + 1)).length = i + 1 := by rw [List.length_take]; omega
  exact {
    linked := {
      long := by rw [hlen]; omega
      root := fun a ha => hc.linked.root a (hget _ _ ha)
      link := fun j a b ha hb => hc.linked.link j a b (hget _ _ ha) (hget _ _ hb)
      target := fun a ha => by
        dsimp only at ha
        rw [hlen] at ha
        have := hget _ _ ha
        rw [Nat.add_sub_cancel, ht] at this
        cases this
        rfl }
    noRevisit := fun a b x y hab hx hy e => hc.noRevisit a b x y hab (hget _ _ hx) (hget _ _ hy) e
    unrevoked := fun a b x y hab hx hy _ => hun a b x y hab (hget _ _ hx) (hget _ _ hy) }

/-- A root trust and one more. -/
theorem Admissible.pair {g : Snapshot} {t0 t : Trust} (hrev : ¬ g.revoked t0.issuedFor t.issuedFor) (hr : g.root t0.issuedFor)
    (h0 : g.trusted t0.issuedFor t0) (h1 : g.trusted t0.issuedFor t) (hne : t0.issuedFor ≠ t.issuedFor) :
    Admissible g t.issuedFor ⟨[t0, t]⟩ where
  linked := {
    long := Nat.le_refl _
    root := fun a ha => by cases ha; exact ⟨hr, h0⟩
    link := fun i a b ha hb => by
      rcases i with _ | i
      · cases ha; cases hb; exact h1
      · cases hb
    target := fun a ha => by cases ha; rfl }
  noRevisit := fun i j a b hij ha hb e => by
    have hj : j < 2 := (List.getElem?_eq_some_iff.mp hb).1
    obtain rfl : i = 0 := by omega
    obtain rfl : j = 1 := by omega
    cases ha; cases hb
    exact absurd e hne
  unrevoked := fun i j a b hij ha hb _ => by
    have hj : j < 2 := (List.getElem?_eq_some_iff.mp hb).1
    obtain rfl : i = 0 := by omega
    obtain rfl : j = 1 := by omega
    cases ha; cases hb
    exact hrev

end Spec

namespace Db
variable {db db' : Db}

theorem rootFactor_congr (h : db'.roots = db.roots) (pk : PublicKey) : db'.rootFactor pk = db.rootFactor pk := by
  unfold rootFactor; rw [h]

/-- The worth of a certificate depends on its keys and on the roots. -/
theorem certWeight_congr (h : db'.roots = db.roots) {c c' : Certificate} (hk : c'.keys = c.keys) :
    db'.certWeight c' = db.certWeight c := by
  unfold Certificate.keys at hk
  unfold certWeight
  rcases hc : c.chain with _ | ⟨t, ts⟩
  · rw [hc, List.map_nil, List.map_eq_nil_iff] at hk
    rw [hk]
  · rcases hc' : c'.chain with _ | ⟨t', ts'⟩
    · rw [hc, hc'] at hk; simp at hk
    rw [hc, hc'] at hk
    simp only [List.map_cons, List.cons.injEq] at hk
    have hl : ts'.length = ts.length := by simpa using congrArg List.length hk.2
    dsimp only
    rw [rootFactor_congr h, hk.1, hl]

theorem weights_le (hroots : db'.roots = db.roots) {pk : PublicKey} {now now' : Dur} {w w' : Nat}
    (h : ∀ c, Spec.Admissible (db.snapshot now) pk c →
      ∃ c', Spec.Admissible (db'.snapshot now') pk c' ∧ c'.keys = c.keys)
    (hw : IsGreatest (Spec.weights db pk now) w) (hw' : IsGreatest (Spec.weights db' pk now') w') : w ≤ w' := by
  rcases hw.1 with rfl | ⟨f, hf, rfl⟩ | ⟨c, hc, rfl⟩
  · exact Nat.zero_le _
  · exact hw'.2 (Or.inr (Or.inl ⟨f, by rw [rootFactor_congr hroots, hf], rfl⟩))
  · obtain ⟨c', hc', hk⟩ := h c hc
    exact hw'.2 (Or.inr (Or.inr ⟨c', hc', (certWeight_congr hroots hk).symm⟩))

theorem snapshot_faults (db : Db) (fs : List Bool) (now : Dur) :
    Db.snapshot { db with faults := fs } now = db.snapshot now := rfl

theorem collect_snapshot (now : Dur) : (db.collect now).snapshot now = db.snapshot now := by
  unfold snapshot
  congr 1
  · funext by' t
    apply propext
    rw [stored_collect]
    simp only [TrustRelation.auth.injEq]
    constructor
    · rintro ⟨⟨h1, _⟩, h2⟩; exact ⟨h1, h2⟩
    · rintro ⟨h1, h2⟩; exact ⟨⟨h1, fun a ha => by subst ha; exact h2⟩, h2⟩
  · funext by' pk
    apply propext
    simp [stored_collect]

theorem put_auth_snapLe {t : Trust} {by' : PublicKey} {now : Dur} (hl : Spec.Live t now) :
    Spec.SnapLe (db.snapshot now) ((db.put (.auth ⟨t, by'⟩)).snapshot now) where
  root k h := h
  trusted k q h := by
    by_cases hp : q.issuedFor = t.issuedFor ∧ k = by'
    · obtain ⟨h1, rfl⟩ := hp
      exact ⟨t.trunc, ⟨stored_put.mpr (Or.inl rfl), hl⟩, h1.symm⟩
    · exact ⟨q, ⟨stored_put.mpr (Or.inr ⟨h.1, hp⟩), h.2⟩, rfl⟩
  revoked a b h := by
    obtain ⟨r, hr, h1, h2⟩ := h
    rcases stored_put.mp hr with e | ⟨hr, -⟩
    · cases e
    · exact ⟨r, hr, h1, h2⟩

theorem put_revocation_trusted {r : Revocation} {now : Dur} {k : PublicKey} {t : Trust}
    (h : ((db.put (.revocation r)).snapshot now).trusted k t) : (db.snapshot now).trusted k t := by
  rcases stored_put.mp h.1 with e | ⟨hs, -⟩
  · cases e
  · exact ⟨hs, h.2⟩

theorem put_revocation_revoked {r : Revocation} {now : Dur} {a b : PublicKey}
    (h : (db.snapshot now).revoked a b) : ((db.put (.revocation r)).snapshot now).revoked a b := by
  obtain ⟨q, hq, rfl, rfl⟩ := h
  by_cases hp : q.pk = r.pk ∧ q.revokedBy = r.revokedBy
  · exact ⟨{ r with revokedAt := r.revokedAt.trunc }, stored_put.mpr (Or.inl rfl), hp.2.symm, hp.1.symm⟩
  · exact ⟨q, stored_put.mpr (Or.inr ⟨hq, hp⟩), rfl, rfl⟩

end Db
end TG
