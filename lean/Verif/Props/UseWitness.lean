/-
Concrete cases for C88, C89, C90 and C91.
-/
import Verif.Props.Access
import Verif.Props.AquaWitness
import Verif.Props.Chain
import Verif.Props.ImportWitness

namespace TG.UseDemo
open TG.Toy TG.AquaDemo

theorem live_of {t : Trust} {now : Dur} (h : now.secs.toNat < t.expiresAt.secs.toNat) (h' : t.expiresAt.secs.toNat < 2 ^ 63) : Spec.Live t now :=
  (Spec.live_iff (by omega) h').mpr h

/-- Root 1 with `max_chain_len` 1 trusts key 2. -/
def short : Db := Op.runAll [.setRoot (pk 1) 1, .addTrust (trust 1 1 1000 1) (pk 1) (s 1), .addTrust (trust 1 2 1000 1) (pk 1) (s 1)] ⟨[], [], []⟩

def refused : Outcome TrustGraphError Nat × Db := TrustGraph.addTrust (trust 2 3 1000 1) (pk 2) (s 1) short
def accepted : Outcome TrustGraphError Nat × Db := TrustGraph.addTrust (trust 1 3 1000 1) (pk 1) (s 1) short

set_option maxRecDepth 100000 in
theorem short_facts : refused.1 = .ok 0 ∧ accepted.1 = .ok 1 ∧ short.relations.length = 2 ∧ pk 2 ≠ pk 3 ∧ pk 1 ≠ pk 3 ∧
    Sqlite.toRow (.auth ⟨trust 1 2 1000 1, pk 1⟩) ∈ short.relations ∧ pk 1 ≠ pk 2 := by decide +kernel

/-- C88: key 2 may not pass on trust, key 1 may. -/
example : ¬ Spec.MayDelegate short (pk 2) (s 1) ∧ Spec.MayDelegate short (pk 1) (s 1) := by
  obtain ⟨h1, h2, h3, h4, h5, -⟩ := short_facts
  have hr : Reachable short := Reachable.init.runAll _
  have hn : short.relations.length + 16 < 2 ^ 32 := by rw [h3]; decide
  constructor
  · intro h
    exact (C88_delegation (t := trust 2 3 1000 1) hr hn h4 (pair_eq h1)).1.mpr h rfl
  · exact (C88_delegation (t := trust 1 3 1000 1) hr hn h5 (pair_eq h2)).1.mp (by decide)

/-- C88: the issuer of a stored trust. -/
example : Reachable short ∧ short.Stored (.auth ⟨trust 1 2 1000 1, pk 1⟩) ∧ pk 1 ≠ (trust 1 2 1000 1).issuedFor :=
  ⟨Reachable.init.runAll _, ⟨⟨rfl, rfl⟩, short_facts.2.2.2.2.2.1⟩, short_facts.2.2.2.2.2.2⟩

/-- The chain of the FAQ. -/
def faq : Certificate := ⟨[trust 1 1 1000 1, trust 1 2 1000 1, trust 2 3 1000 1, trust 3 4 1000 1]⟩

set_option maxRecDepth 100000 in
theorem faq_facts : (faq.chain.map (·.issuedFor)).Nodup ∧ (∀ p ∈ (Spec.issuers faq.chain).zip faq.chain, p.2.verify p.1 (s 5) = .ok ()) := by
  decide +kernel

/-- C89: it is such a chain. -/
theorem faq_chain (m : Nat) (hm : 3 ≤ m) : Spec.Chain faq (pk 1) m (s 5) where
  start := ⟨_, rfl, rfl⟩
  long := by decide
  short := by show 4 ≤ m + 1; omega
  distinct i j a b ha hb e := by
    have ha' : (faq.chain.map (·.issuedFor))[i]? = some a.issuedFor := by rw [List.getElem?_map, ha]; rfl
    have hb' : (faq.chain.map (·.issuedFor))[j]? = some b.issuedFor := by rw [List.getElem?_map, hb]; rfl
    have hi := (List.getElem?_eq_some_iff.mp ha').1
    exact (List.getElem?_inj hi faq_facts.1).mp (by rw [ha', hb', e])
  valid := by
    rintro k t ⟨i, hk, ht⟩
    refine faq_facts.2 (k, t) (List.mem_of_getElem? (i := i) ?_)
    rw [List.getElem?_zip_eq_some]
    exact ⟨hk, ht⟩
  live := by
    intro t ht
    simp only [faq, List.mem_cons, List.not_mem_nil, or_false] at ht
    rcases ht with rfl | rfl | rfl | rfl <;> exact live_of (by decide) (by decide)
  whole := by
    intro t ht
    simp only [faq, List.mem_cons, List.not_mem_nil, or_false] at ht
    rcases ht with rfl | rfl | rfl | rfl <;> exact ⟨rfl, rfl⟩

/-- C89: the numbers of the FAQ are wrong for it; those of the theorem are 16, 8, 4, 2. -/
example : ¬ Spec.FaqWeights faq (pk 1) (s 5) := C89_faq_fails (faq_chain 4 (by decide))

example : ∃ d, (TrustGraph.setRoot (pk 1) 4 >>= fun _ => TrustGraph.add faq (s 5)) Db.empty = (.ok (), d) ∧
    (TrustGraph.weight (pk 1) (s 9) d).1 = .ok 16 ∧ (TrustGraph.weight (pk 4) (s 999) d).1 = .ok 2 ∧ (TrustGraph.weight (pk 4) (s 1000) d).1 = .ok 0 := by
  obtain ⟨d, h1, h2⟩ := C89_weights_along_chain_partial (by decide) (faq_chain 4 (by decide))
  refine ⟨d, h1, (h2 (s 9)).1, ?_, ?_⟩
  · refine (h2 (s 999)).2.1 3 (trust 3 4 1000 1) (by decide) rfl fun j t _ ht => ?_
    have ht := List.mem_of_getElem? ht
    simp only [faq, List.mem_cons, List.not_mem_nil, or_false] at ht
    rcases ht with rfl | rfl | rfl | rfl <;> exact live_of (by decide) (by decide)
  · exact (h2 (s 1000)).2.2.1 3 3 (trust 3 4 1000 1) _ (by decide) rfl (by decide) rfl (by
      show ¬ asI64 _ < asI64 _
      decide)

/-- The subnetwork of keys 1 (the authority), 2 and 3. -/
def puts : List (Trust × Dur) := [(trust 1 1 1000 1, s 1), (trust 1 2 1000 1, s 2), (trust 1 3 900 1, s 2)]

set_option maxRecDepth 100000 in
theorem puts_facts : (puts.map (·.1.issuedFor)).Nodup ∧ (∀ p ∈ puts, p.1.verify (pk 1) p.2 = .ok ()) ∧
    pk 2 ≠ pk 1 ∧ pk 2 ∈ puts.map (·.1.issuedFor) ∧ pk 4 ∉ puts.map (·.1.issuedFor) := by decide +kernel

/-- C90: its trusts are as required. -/
theorem puts_issued : Spec.IssuedBy (pk 1) puts where
  valid := puts_facts.2.1
  whole := by
    intro p hp
    simp only [puts, List.mem_cons, List.not_mem_nil, or_false] at hp
    rcases hp with rfl | rfl | rfl <;> exact ⟨rfl, rfl⟩
  live := by
    intro p hp q hq
    simp only [puts, List.mem_cons, List.not_mem_nil, or_false] at hp hq
    rcases hp with rfl | rfl | rfl <;> rcases hq with rfl | rfl | rfl <;> exact live_of (by decide) (by decide)
  distinct := puts_facts.1

/-- C90: the steps of the README, and what `weight_from` then answers: key 2 is a member, key 4 is not, and key 1 is not found. -/
example : ∃ d, (TrustGraph.setRoot (pk 1) 1 >>= fun _ => putAll (pk 1) puts) Db.empty = (.ok (), d) ∧
    (∃ w, (TrustGraph.weightFrom (pk 2) (pk 1) (s 800) d).1 = .ok w ∧ w ≠ 0) ∧
    (TrustGraph.weightFrom (pk 4) (pk 1) (s 800) d).1 = .ok 0 ∧
    (TrustGraph.weightFrom (pk 1) (pk 1) (s 800) d).1 = .ok 0 := by
  obtain ⟨d, h1, hf, hl, hr, h2⟩ := C90_steps_partial (m := 1) (by decide) puts_issued ⟨_, .head _, rfl⟩ (by decide)
  have hn : d.relations.length + 16 < 2 ^ 32 := by
    have : puts.length = 3 := rfl
    omega
  have hsub := h2 (s 800) (by
    intro p hp
    simp only [puts, List.mem_cons, List.not_mem_nil, or_false] at hp
    rcases hp with rfl | rfl | rfl <;> exact live_of (by decide) (by decide))
  have hans : ∀ T, ∃ w s', TrustGraph.weightFrom T (pk 1) (s 800) d = (.ok w, s') ∧ (w ≠ 0 ↔ T ≠ pk 1 ∧ T ∈ puts.map (·.1.issuedFor)) := by
    intro T
    obtain ⟨w, hw, -⟩ := Db.weightFrom_spec hr.healthy hf hn T (pk 1) (s 800)
    exact ⟨w, _, hw, (C90_membership_partial hr hn hsub T).1 w _ hw⟩
  refine ⟨d, h1, ?_, ?_, ?_⟩
  · obtain ⟨w, s', hw, h⟩ := hans (pk 2)
    exact ⟨w, by rw [hw], h.mpr ⟨puts_facts.2.2.1, puts_facts.2.2.2.1⟩⟩
  · obtain ⟨w, s', hw, h⟩ := hans (pk 4)
    have : w = 0 := by
      by_contra h0
      exact puts_facts.2.2.2.2 (h.mp h0).2
    rw [hw, this]
  · obtain ⟨w, s', hw, -⟩ := hans (pk 1)
    rw [hw, C90_authority_fails hr hn hsub hw]

/-- C91: granting key 6 access. -/
example : ∃ w d, TrustGraph.addTrust (trust 1 6 900 2) (pk 1) (s 10) Demo.db = (.ok w, d) ∧ w ≠ 0 ∧
    ∃ w' s', TrustGraph.weight (pk 6) (s 899) d = (.ok w', s') ∧ w' ≠ 0 := by
  obtain ⟨h1, h2, h3, h4, h5, h6, h7, -⟩ := Demo.newCert_facts
  obtain ⟨w, d, ha, hw, -, hlater⟩ := C91_grant (t0 := trust 1 1 1000 1) (t := trust 1 6 900 2) (now := s 10) Demo.reachable Demo.tables.2.2
    (by rw [Demo.tables.1]; decide) h1 (by decide) ⟨⟨rfl, rfl⟩, h5⟩ rfl (fun h => h7 h.symm) (live_of (by decide) (by decide))
    (live_of (by decide) (by decide)) h3 ⟨rfl, rfl⟩
    (fun r hr hp => absurd hp.1 (Demo.not_stored (fun row hm => (h6 row hm).1) hr))
  exact ⟨w, d, ha, hw, hlater (s 899) (live_of (by decide) (by decide)) (live_of (by decide) (by decide))⟩

/-- Root 1 revokes key 2 at time 5; afterwards the old trust is submitted again, and key 2 is trusted by key 3. -/
def revoked : Db := Op.runAll [.revoke (revocation 1 2 5)] short
def after : Db := Op.runAll [.addTrust (trust 1 2 1000 1) (pk 1) (s 6), .addTrust (trust 3 2 1000 6) (pk 3) (s 6)] revoked
def answer : Outcome TrustGraphError Nat × Db := TrustGraph.weight (pk 2) (s 7) after

set_option maxRecDepth 100000 in
theorem revoked_facts : answer.1 = .ok 0 ∧ Sqlite.toRow (.revocation (revocation 1 2 5)) ∈ revoked.relations ∧
    (∀ row ∈ revoked.roots, row.publicKey = keyText (pk 1)) ∧ after.relations.length = 2 ∧ pk 1 ≠ pk 2 ∧ pk 3 ≠ pk 1 := by decide +kernel

/-- C91: the hypotheses of the second part. -/
example : Reachable revoked ∧ pk 1 ≠ pk 2 ∧ (∀ k, (revoked.rootFactor k).isSome → k = pk 1) ∧ revoked.Stored (.revocation (revocation 1 2 5)) ∧
    Later (fun op => (∀ k n, op = .setRoot k n → k = pk 1) ∧
      ∀ a : Auth, op.Submits (.auth a) → a.issuedBy = pk 1 → a.trust.issuedFor = pk 2 → a.trust.issuedAt.total ≤ (revocation 1 2 5).revokedAt.total)
      revoked after ∧ TrustGraph.weight (pk 2) (s 7) after = (.ok 0, answer.2) := by
  obtain ⟨h1, h2, h3, h4, h5, h6⟩ := revoked_facts
  refine ⟨(Reachable.init.runAll _).runAll _, h5, ?_, ⟨rfl, h2⟩, .runAll _ ?_ _, pair_eq h1⟩
  · intro k hk
    obtain ⟨row, hm, e⟩ := Db.rootFactor_isSome.mp hk
    exact (keyText_inj ((h3 row hm).symm.trans e)).symm
  · intro op hop
    simp only [List.mem_cons, List.not_mem_nil, or_false] at hop
    rcases hop with rfl | rfl
    · refine ⟨by rintro k n ⟨⟩, ?_⟩
      intro a ha _ _
      obtain ⟨ha, -⟩ := ha
      simp only [Op.offers, List.mem_singleton] at ha
      cases ha
      decide
    · refine ⟨by rintro k n ⟨⟩, ?_⟩
      intro a ha hb _
      obtain ⟨ha, -⟩ := ha
      simp only [Op.offers, List.mem_singleton] at ha
      cases ha
      exact absurd hb h6

/-- Root 1 is set, but has no root trust: key 2 has weight 0 although 1 trusts it. -/
def bare : Db := Op.runAll [.setRoot (pk 1) 1, .addTrust (trust 1 2 1000 1) (pk 1) (s 1)] ⟨[], [], []⟩
def bareAnswer : Outcome TrustGraphError Nat × Db := TrustGraph.weight (pk 2) (s 7) bare

set_option maxRecDepth 100000 in
/-- C91: the trust is stored, and confers nothing. -/
example : Sqlite.toRow (.auth ⟨trust 1 2 1000 1, pk 1⟩) ∈ bare.relations ∧ bare.rootFactor (pk 2) = none ∧
    (∀ row ∈ bare.relations, row.issuedFor ≠ row.issuedBy) ∧ bareAnswer.1 = .ok 0 := by decide +kernel

end TG.UseDemo
