/-
Property C118: certificates carried to another node together with the revocations of their keys.
-/
import Verif.Props.Carry
import Verif.Props.Relations

namespace TG
variable [Env]

/-- `revoke` of one revocation after the other. -/
def revokeAll : List Revocation → M Db TrustGraphError Unit
  | [] => pure ()
  | r :: rs => do
    TrustGraph.revoke r
    revokeAll rs

/-- The revocations `rs` are those that node `A` returned for the keys on the certificates (and perhaps for other keys). -/
structure Spec.CarriedRevocations (A : Db) (cs : List (Certificate × Dur)) (rs : List Revocation) : Prop where
  returned : ∀ r ∈ rs, ∃ k answer s, TrustGraph.getRevocations k A = (.ok answer, s) ∧ r ∈ answer
  complete : ∀ p ∈ cs, ∀ k ∈ p.1.keys, ∃ answer s, TrustGraph.getRevocations k A = (.ok answer, s) ∧ ∀ r ∈ answer, r ∈ rs

/-- Revocations that fit what is stored are all stored, and displace nothing. -/
theorem revokeAll_ok {A : Db} (hA : Reachable A) {rs : List Revocation} : ∀ {d : Db}, d.Healthy → d.NoFaults → (∀ q, d.Stored q → A.Stored q) →
    (∀ r ∈ rs, A.Stored (.revocation r)) →
    ∃ d', revokeAll rs d = (.ok (), d') ∧ d'.Healthy ∧ d'.NoFaults ∧ d'.roots = d.roots ∧ d'.relations.length ≤ d.relations.length + rs.length ∧
      ∀ q, d'.Stored q ↔ d.Stored q ∨ ∃ r ∈ rs, q = .revocation r := by
  induction rs with
  | nil => exact fun hh hf _ _ => ⟨_, rfl, hh, hf, rfl, le_refl _, fun q => by simp⟩
  | cons r rs ih =>
    intro d hh hf hsub hrs
    have hr := hrs r (.head _)
    have hv : r.verify = .ok () := (C33_stored_is_verified hA).2 r hr
    have hst : ∀ q, (d.update (.revocation r)).Stored q ↔ d.Stored q ∨ q = .revocation r := by
      intro q
      have hpair : ∀ q, d.Stored q → q.SamePair (.revocation r) → q = .revocation r := fun q hq hp => hA.healthy.stored_unique (hsub q hq) hr hp.1 hp.2
      rw [Db.stored_update_fresh hh hr.1 fun q hq hp => .inl (hpair q hq hp)]
      constructor
      · rintro (h | h)
        · exact .inr h
        · exact .inl h.1
      · rintro (h | h)
        · by_cases hp : q.SamePair (.revocation r)
          · exact .inl (hpair q h hp)
          · exact .inr ⟨h, hp⟩
        · exact .inl h
    obtain ⟨d', h1, h2, h3, h4, h5, h6⟩ := ih (hh.update _) (hf.update _)
      (fun q hq => ((hst q).mp hq).elim (hsub q) fun e => e ▸ hr) fun r hr => hrs r (.tail _ hr)
    refine ⟨d', ?_, h2, h3, h4.trans (Db.update_roots _), ?_, fun q => ?_⟩
    · show (do TrustGraph.revoke r; revokeAll rs : M Db TrustGraphError Unit) d = _
      rw [M.bind_run_ok (Db.revoke_eq hh hf hv)]
      exact h1
    · have := Db.update_length_le (db := d) (.revocation r)
      rw [List.length_cons]
      omega
    · rw [h6, hst]
      simp only [List.mem_cons, exists_eq_or_imp, or_assoc]

/-- A certificate is good on a node that has fewer relations, if its own trusts are there. -/
theorem Spec.Admissible.fewer {A B : Db} {k : PublicKey} {now : Dur} {c : Certificate} (h : Spec.Admissible (A.snapshot now) k c)
    (hroots : ∀ k, B.rootFactor k = A.rootFactor k) (hedge : ∀ k t, Spec.Edge c.chain k t → B.Stored (.auth ⟨t, k⟩))
    (hrev : ∀ r : Revocation, (∃ t ∈ c.chain, t.issuedFor = r.pk) → B.Stored (.revocation r) → A.Stored (.revocation r)) :
    Spec.Admissible (B.snapshot now) k c := by
  refine ⟨⟨h.linked.long, ?_, ?_, h.linked.target⟩, h.noRevisit, ?_⟩
  · intro t ht
    obtain ⟨hr, -, hl⟩ := h.linked.root t ht
    exact ⟨Db.rootFactor_isSome.mp (by rw [hroots]; exact Db.rootFactor_isSome.mpr hr), hedge _ t ⟨0, Spec.edge_zero ht, ht⟩, hl⟩
  · intro i a b ha hb
    obtain ⟨-, hl⟩ := h.linked.link i a b ha hb
    exact ⟨hedge _ b ⟨i + 1, Spec.issuers_succ ha (List.getElem?_eq_some_iff.mp hb).1, hb⟩, hl⟩
  · rintro i j a b hij ha hb hj ⟨r, hr, ea, eb⟩
    exact h.unrevoked i j a b hij ha hb hj ⟨r, hrev r ⟨b, List.mem_of_getElem? hb, eb.symm⟩ hr, ea, eb⟩

/-- **C118.** Certificates that node `A` returned are added to a new node with the same roots, in any order, and then the revocations that `A` returned for the
keys on these certificates, in any order.  All calls succeed.  From then on, whenever all certificates of a key have been carried, both nodes return the same
certificates and the same weight for it, at the time of asking or later; and they return the same revocations of the keys on the certificates. -/
theorem C118_carry_all {A B : Db} {asked : Dur} {cs : List (Certificate × Dur)} {rs : List Revocation} (hA : Reachable A) (hB : Reachable B)
    (hf : B.NoFaults) (h : Spec.Carried A B asked cs) (hrs : Spec.CarriedRevocations A cs rs)
    (hn : (cs.map (·.1.chain.length)).sum + rs.length + 16 < 2 ^ 32) :
    ∃ B' B'', addAll cs B = (.ok (), B') ∧ revokeAll rs B' = (.ok (), B'') ∧
      (∀ k certs s, TrustGraph.getAllCerts k asked A = (.ok certs, s) → (∀ c ∈ certs, ∃ p ∈ cs, p.1 = c) →
        ∀ later : Dur, asI64 asked.secs ≤ asI64 later.secs →
        (∀ x y s s', TrustGraph.getAllCerts k later A = (.ok x, s) → TrustGraph.getAllCerts k later B'' = (.ok y, s') → ∀ c, c ∈ y ↔ c ∈ x) ∧
        (A.relations.length + 16 < 2 ^ 32 →
          (∀ w w' s s', TrustGraph.weight k later A = (.ok w, s) → TrustGraph.weight k later B'' = (.ok w', s') → w' = w) ∧
          ∀ X w w' s s', TrustGraph.weightFrom k X later A = (.ok w, s) → TrustGraph.weightFrom k X later B'' = (.ok w', s') → w' = w)) ∧
      (∀ p ∈ cs, ∀ k ∈ p.1.keys, ∀ x y s s', TrustGraph.getRevocations k A = (.ok x, s) → TrustGraph.getRevocations k B'' = (.ok y, s') →
        ∀ r, r ∈ y ↔ r ∈ x) := by
  obtain ⟨B', h1, h2⟩ := h.imported hA hB hf (by omega)
  have hst : ∀ r, B'.Stored r ↔ ∃ p ∈ cs, ∃ k t, Spec.Edge p.1.chain k t ∧ r = .auth ⟨t, k⟩ := by
    intro r
    rw [h2.stored]
    exact ⟨fun h' => h'.elim id fun h' => absurd h'.1 (h.empty r), .inl⟩
  have hsub : ∀ r, B'.Stored r → A.Stored r := by
    intro r hr
    obtain ⟨p, hp, k', t, he, rfl⟩ := (hst r).mp hr
    obtain ⟨_, ha⟩ := h.admissible hA.healthy hp
    exact (ha.linked.edge he).1
  have hrsA : ∀ r ∈ rs, A.Stored (.revocation r) := by
    intro r hr
    obtain ⟨k, answer, s, hg, hm⟩ := hrs.returned r hr
    exact ((C37_revocations_exact hA.healthy hg).2 r |>.mp hm).1
  obtain ⟨B'', g1, g2, g3, g4, g5, g6⟩ := revokeAll_ok hA h2.healthy h2.noFaults hsub hrsA
  have hfac : ∀ k, B''.rootFactor k = A.rootFactor k := fun k => (Db.rootFactor_congr g4 k).trans ((h2.rootFactor k).trans (h.roots k))
  have hsub' : ∀ r, B''.Stored r → A.Stored r := by
    intro r hr
    rcases (g6 r).mp hr with hr | ⟨r', hr', rfl⟩
    · exact hsub r hr
    · exact hrsA r' hr'
  have hauth : ∀ a, B''.Stored (.auth a) → ∃ p ∈ cs, a.trust.issuedFor ∈ p.1.keys := by
    intro a ha
    rcases (g6 _).mp ha with ha | ⟨r', -, e⟩
    · obtain ⟨p, hp, k, t, he, e⟩ := (hst _).mp ha
      cases e
      exact ⟨p, hp, List.mem_map_of_mem he.mem⟩
    · cases e
  have hrev : ∀ p ∈ cs, ∀ r : Revocation, r.pk ∈ p.1.keys → A.Stored (.revocation r) → B''.Stored (.revocation r) := by
    intro p hp r hk hr
    obtain ⟨answer, s, hg, hm⟩ := hrs.complete p hp r.pk hk
    exact (g6 _).mpr (.inr ⟨r, hm r ((C37_revocations_exact hA.healthy hg).2 r |>.mpr ⟨hr, rfl⟩), rfl⟩)
  have hadm : ∀ k certs s, TrustGraph.getAllCerts k asked A = (.ok certs, s) → (∀ c ∈ certs, ∃ p ∈ cs, p.1 = c) →
      ∀ later : Dur, asI64 asked.secs ≤ asI64 later.secs → ∀ c, Spec.Admissible (B''.snapshot later) k c ↔ Spec.Admissible (A.snapshot later) k c := by
    intro k certs s hget hall later hle c
    constructor
    · intro hc
      refine hc.fewer (fun k => (hfac k).symm) (fun k t he => hsub' _ (hc.linked.edge he).1) fun r ⟨t, ht, e⟩ hr => ?_
      obtain ⟨k', hs, -⟩ := hc.linked.mem ht
      obtain ⟨p, hp, hk⟩ := hauth _ hs
      exact hrev p hp r (e ▸ hk) hr
    · intro hc
      have hc' : Spec.Admissible (A.snapshot asked) k c :=
        Spec.Admissible.mono (g := A.snapshot later) (g' := A.snapshot asked) (fun _ h => h) (fun _ _ h => ⟨h.1, lt_of_le_of_lt hle h.2⟩) (fun _ _ h => h) hc
      obtain ⟨p, hp, rfl⟩ := hall c ((C02_complete_exactly_once hA.healthy hget).2 c |>.mpr hc')
      exact hc.fewer hfac (fun k t he => (g6 _).mpr (.inl ((hst _).mpr ⟨p, hp, k, t, he, rfl⟩))) fun r _ hr => hsub' _ hr
  refine ⟨B', B'', h1, g1, fun k certs s hget hall later hle => ⟨?_, ?_⟩, ?_⟩
  · intro x y s s' hx hy c
    rw [(C02_complete_exactly_once g2 hy).2, (C02_complete_exactly_once hA.healthy hx).2]
    exact hadm k certs _ hget hall later hle c
  · intro hnA
    have hlen : B''.relations.length + 16 < 2 ^ 32 := by
      have := h2.length
      rw [hB.healthy.relations_empty h.empty, List.length_nil] at this
      omega
    have hcw : ∀ c, B''.certWeight c = A.certWeight c := by
      intro c
      unfold Db.certWeight
      rcases c.chain with _ | ⟨t, ts⟩
      · rfl
      · dsimp only
        rw [hfac]
    have hadm := hadm k certs _ hget hall later hle
    constructor
    · intro w w' s s' hw hw'
      have e : Spec.weights B'' k later = Spec.weights A k later := by
        ext v
        unfold Spec.weights
        simp only [hfac, hcw, hadm]
      have := weight_ok g2 hlen hw'
      rw [e] at this
      exact this.unique (weight_ok hA.healthy hnA hw)
    · intro X w w' s s' hw hw'
      have e : Spec.weightsFrom B'' k X later = Spec.weightsFrom A k X later := by
        ext v
        unfold Spec.weightsFrom
        simp only [hcw, hadm]
      have := weightFrom_ok g2 hlen hw'
      rw [e] at this
      exact this.unique (weightFrom_ok hA.healthy hnA hw)
  · intro p hp k hk x y s s' hx hy r
    rw [(C37_revocations_exact g2 hy).2, (C37_revocations_exact hA.healthy hx).2]
    refine ⟨fun ⟨h1, h2⟩ => ⟨hsub' _ h1, h2⟩, fun ⟨h1, h2⟩ => ⟨hrev p hp r (by rw [h2]; exact hk) h1, h2⟩⟩

end TG
