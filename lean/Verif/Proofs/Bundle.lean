/-
Importing lists of certificates.
-/
import Verif.Proofs.Import

namespace TG
variable [Env]

/-- What the import of certificates `cs` at their times has made of `db`. -/
structure Imported (db : Db) (cs : List (Certificate × Dur)) (d : Db) : Prop where
  healthy : d.Healthy
  noFaults : d.NoFaults
  roots : d.roots = db.roots
  length : d.relations.length ≤ db.relations.length + (cs.map (·.1.chain.length)).sum
  stored : ∀ r, d.Stored r ↔
    (∃ p ∈ cs, ∃ k t, Spec.Edge p.1.chain k t ∧ r = .auth ⟨t, k⟩) ∨
    (db.Stored r ∧ (∀ a, r = .auth a → ∀ p ∈ cs, Spec.Live a.trust p.2) ∧
      ∀ p ∈ cs, ∀ k t, Spec.Edge p.1.chain k t → ¬ r.SamePair (.auth ⟨t, k⟩))

/-- One certificate. -/
theorem Importing.imported {db d : Db} {c : Certificate} {now : Dur} (hc : Spec.Importable db c now)
    (h : Importing db c now c.chain.length d) : Imported db [(c, now)] d where
  healthy := h.healthy
  noFaults := h.noFaults
  roots := h.roots
  length := by simpa using h.length
  stored r := by
    have hl := hc.long
    have hlt : ∀ {i : Nat} {t : Trust}, c.chain[i]? = some t → i < c.chain.length := fun h => (List.getElem?_eq_some_iff.mp h).1
    rw [h.stored (by omega), h.collected, Db.stored_collect]
    simp only [List.mem_singleton, exists_eq_left, forall_eq, and_assoc]
    refine or_congr ⟨?_, ?_⟩ (and_congr_right fun _ => and_congr_right fun _ => ⟨?_, ?_⟩)
    · rintro ⟨i, k, t, -, hk, ht, rfl⟩
      exact ⟨k, t, ⟨i, hk, ht⟩, rfl⟩
    · rintro ⟨k, t, ⟨i, hk, ht⟩, rfl⟩
      exact ⟨i, k, t, hlt ht, hk, ht, rfl⟩
    · rintro h k t ⟨i, hk, ht⟩
      exact h i k t (hlt ht) hk ht
    · exact fun h i k t _ hk ht => h k t ⟨i, hk, ht⟩

namespace Imported
variable {db d d' : Db} {cs cs' : List (Certificate × Dur)}

theorem nil (hh : db.Healthy) (hf : db.NoFaults) : Imported db [] db :=
  ⟨hh, hf, rfl, by simp, by simp⟩

theorem rootFactor (h : Imported db cs d) (k : PublicKey) : d.rootFactor k = db.rootFactor k :=
  Db.rootFactor_congr h.roots k

theorem revoked (h : Imported db cs d) {r : Revocation} (hr : d.Stored (.revocation r)) : db.Stored (.revocation r) := by
  rcases (h.stored _).mp hr with ⟨_, _, _, _, _, e⟩ | ⟨hs, -⟩
  · cases e
  · exact hs

/-- What was importable and agrees still is. -/
theorem importable (h : Imported db cs d) {c : Certificate} {now : Dur} (hc : Spec.Importable db c now)
    (ha : ∀ p ∈ cs, Spec.Agree p.1 c) : Spec.Importable d c now where
  long := hc.long
  root t ht := by
    obtain ⟨f, hf, hl⟩ := hc.root t ht
    exact ⟨f, by rw [h.rootFactor]; exact hf, hl⟩
  valid := hc.valid
  live := hc.live
  whole := hc.whole
  noRevisit := hc.noRevisit
  unrevoked i j a b hij hi hj := by
    rintro ⟨r, hr, h1, h2⟩
    exact hc.unrevoked i j a b hij hi hj ⟨r, h.revoked hr, h1, h2⟩
  fresh k t he r hr hp := by
    rcases (h.stored _).mp hr with ⟨p, hm, k', t', he', rfl⟩ | ⟨hs, -⟩
    · obtain ⟨h1, h2⟩ := hp
      change t'.issuedFor = t.issuedFor at h1
      change k' = k at h2
      subst h2
      exact .inl (by rw [ha p hm k' t' t he' he h1])
    · exact hc.fresh k t he r hs hp

theorem cons {p : Certificate × Dur} (h1 : Imported db [p] d) (h2 : Imported d cs d')
    (hlive : ∀ k t, Spec.Edge p.1.chain k t → ∀ q ∈ cs, Spec.Live t q.2)
    (ha : ∀ q ∈ cs, Spec.Agree p.1 q.1) : Imported db (p :: cs) d' where
  healthy := h2.healthy
  noFaults := h2.noFaults
  roots := h2.roots.trans h1.roots
  length := by
    have := h1.length
    have := h2.length
    simp only [List.map_cons, List.sum_cons, List.map_nil, List.sum_nil] at *
    omega
  stored r := by
    rw [h2.stored, h1.stored]
    simp only [List.mem_singleton, exists_eq_left, forall_eq]
    simp only [List.mem_cons, exists_eq_or_imp, forall_eq_or_imp]
    constructor
    · rintro (⟨q, hq, k, t, he, rfl⟩ | ⟨⟨k, t, he, rfl⟩ | ⟨hs, hl, hp⟩, hl', hp'⟩)
      · exact .inl (.inr ⟨q, hq, k, t, he, rfl⟩)
      · exact .inl (.inl ⟨k, t, he, rfl⟩)
      · exact .inr ⟨hs, fun a e => ⟨hl a e, hl' a e⟩, hp, hp'⟩
    · rintro ((⟨k, t, he, rfl⟩ | ⟨q, hq, k, t, he, rfl⟩) | ⟨hs, hl, hp, hp'⟩)
      · by_cases hex : ∃ q ∈ cs, ∃ k' t', Spec.Edge q.1.chain k' t' ∧
          (TrustRelation.auth ⟨t, k⟩).SamePair (.auth ⟨t', k'⟩)
        · obtain ⟨q, hq, k', t', he', h1, h2⟩ := hex
          change t.issuedFor = t'.issuedFor at h1
          change k = k' at h2
          subst h2
          obtain rfl := ha q hq k t t' he he' h1
          exact .inl ⟨q, hq, k, t, he', rfl⟩
        · refine .inr ⟨.inl ⟨k, t, he, rfl⟩, ?_, ?_⟩
          · rintro a e q hq
            cases e
            exact hlive k t he q hq
          · exact fun q hq k' t' he' hp => hex ⟨q, hq, k', t', he', hp⟩
      · exact .inl ⟨q, hq, k, t, he, rfl⟩
      · exact .inr ⟨.inr ⟨hs, fun a e => (hl a e).1, hp⟩, fun a e => (hl a e).2, hp'⟩

end Imported

theorem Spec.Edge.mem {ts : List Trust} {k : PublicKey} {t : Trust} (h : Spec.Edge ts k t) : t ∈ ts := by
  obtain ⟨i, -, ht⟩ := h
  exact List.mem_of_getElem? ht

theorem Spec.Bundle.tail {db d : Db} {p : Certificate × Dur} {cs : List (Certificate × Dur)} (h : Spec.Bundle db (p :: cs))
    (hi : Imported db [p] d) : Spec.Bundle d cs where
  each q hq r hr := hi.importable (h.each q (.tail _ hq) r (.tail _ hr))
    (by simpa using h.agree p (.head _) q (.tail _ hq))
  agree q hq r hr := h.agree q (.tail _ hq) r (.tail _ hr)

/-- A bundle is imported. -/
theorem import_addAll {cs : List (Certificate × Dur)} : ∀ {db : Db}, db.Healthy → db.NoFaults → Spec.Bundle db cs →
    db.relations.length + (cs.map (·.1.chain.length)).sum + 16 < 2 ^ 32 →
    ∃ d, addAll cs db = (.ok (), d) ∧ Imported db cs d := by
  induction cs with
  | nil => exact fun hh hf _ _ => ⟨_, rfl, .nil hh hf⟩
  | cons p cs ih =>
    intro db hh hf hb hn
    simp only [List.map_cons, List.sum_cons] at hn
    have hp := hb.each p (.head _) p (.head _)
    obtain ⟨d, h1, h2⟩ := import_add hh hf hp (by omega)
    have h2 := h2.imported hp
    have hl := h2.length
    simp only [List.map_cons, List.sum_cons, List.map_nil, List.sum_nil] at hl
    obtain ⟨d', h3, h4⟩ := ih h2.healthy h2.noFaults (hb.tail h2) (by omega)
    refine ⟨d', ?_, h2.cons h4 (fun k t he q hq => (hb.each p (.head _) q (.tail _ hq)).live t he.mem)
      (fun q hq => hb.agree p (.head _) q (.tail _ hq))⟩
    show (do TrustGraph.add p.1 p.2; addAll cs : M Db TrustGraphError Unit) db = _
    rw [M.bind_run_ok h1]
    exact h3

/-- A certificate whose trusts are stored and live. -/
theorem admissible_of_edges {d : Db} {c : Certificate} {now : Dur} {last : Trust} (hh : d.Healthy) (hlong : 2 ≤ c.chain.length)
    (hroot : ∀ t, c.chain[0]? = some t → (d.rootFactor t.issuedFor).isSome)
    (hs : ∀ k t, Spec.Edge c.chain k t → d.Stored (.auth ⟨t, k⟩)) (hl : ∀ t ∈ c.chain, Spec.Live t now)
    (hn : Spec.NoRevisit c.chain)
    (hr : ∀ (i j : Nat) a b, i + 1 < j → c.chain[i]? = some a → c.chain[j]? = some b →
      ¬ ∃ r : Revocation, d.Stored (.revocation r) ∧ r.revokedBy = a.issuedFor ∧ r.pk = b.issuedFor)
    (ht : c.chain[c.chain.length - 1]? = some last) : Spec.Admissible (d.snapshot now) last.issuedFor c := by
  have htr : ∀ {i : Nat} {k : PublicKey} {t : Trust}, (Spec.issuers c.chain)[i]? = some k → c.chain[i]? = some t →
      (d.snapshot now).trusted k t :=
    fun hk ht => ⟨hs _ _ ⟨_, hk, ht⟩, hl _ (List.mem_of_getElem? ht)⟩
  refine ⟨⟨hlong, ?_, ?_, ?_⟩, hn, ?_⟩
  · exact fun a ha => ⟨Db.rootFactor_isSome.mp (hroot a ha), htr (Spec.edge_zero ha) ha⟩
  · exact fun i a b ha hb => htr (Spec.issuers_succ ha (List.getElem?_eq_some_iff.mp hb).1) hb
  · intro t h
    rw [ht] at h
    cases h
    rfl
  · rintro i j a b hij ha hb - ⟨r, hst, h1, h2⟩
    by_cases e : i + 1 = j
    · subst e
      have := hh.stored_unique hst (hs _ _ ⟨_, Spec.issuers_succ ha (List.getElem?_eq_some_iff.mp hb).1, hb⟩) h2 h1
      cases this
    · exact hr i j a b (by omega) ha hb ⟨r, hst, h1, h2⟩

/-- An imported certificate is in force as long as its trusts live. -/
theorem Imported.admissible {db d : Db} {cs : List (Certificate × Dur)} (h : Imported db cs d) {p : Certificate × Dur} (hp : p ∈ cs)
    (hc : Spec.Importable db p.1 p.2) {now : Dur} (hl : ∀ t ∈ p.1.chain, Spec.Live t now) {last : Trust}
    (ht : p.1.chain[p.1.chain.length - 1]? = some last) : Spec.Admissible (d.snapshot now) last.issuedFor p.1 := by
  refine admissible_of_edges h.healthy hc.long ?_ (fun k t he => (h.stored _).mpr (.inl ⟨p, hp, k, t, he, rfl⟩)) hl hc.noRevisit ?_ ht
  · intro t ht
    obtain ⟨f, hf, -⟩ := hc.root t ht
    rw [h.rootFactor, hf]
    rfl
  · rintro i j a b hij ha hb ⟨r, hr, h1, h2⟩
    exact hc.unrevoked i j a b hij ha hb ⟨r, h.revoked hr, h1, h2⟩

end TG
