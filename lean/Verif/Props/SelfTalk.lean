/-
Property C141: what keys say about themselves.
-/
import Verif.Props.OwnWeight

namespace TG
variable [Env]

/-- The calls hand over, with a valid signature, only relations of keys to themselves, of keys that are not roots; they set no root and are not later than `now`. -/
def Spec.SelfTalk (db : Db) (now : Dur) (op : Op) : Prop :=
  (∀ q, op.Submits q → q.issuedBy = q.issuedFor ∧ db.rootFactor q.issuedBy = none) ∧ (∀ k n, op ≠ .setRoot k n) ∧ ∀ t, op.time = some t → asI64 t.secs ≤ asI64 now.secs

namespace SelfTalk

/-- The relations of the pairs for which `P` does not hold are the same. -/
structure AgreeOff (P : PublicKey → PublicKey → Prop) (g g' : Spec.Snapshot) : Prop where
  trusted : ∀ k t, ¬ P k t.issuedFor → (g'.trusted k t ↔ g.trusted k t)
  revoked : ∀ k k', ¬ P k k' → (g'.revoked k k' ↔ g.revoked k k')
  root : ∀ k, g'.root k ↔ g.root k

theorem AgreeOff.symm {P : PublicKey → PublicKey → Prop} {g g' : Spec.Snapshot} (h : AgreeOff P g g') : AgreeOff P g' g :=
  ⟨fun k t hk => (h.trusted k t hk).symm, fun k t hk => (h.revoked k t hk).symm, fun k => (h.root k).symm⟩

theorem AgreeOff.of_later {P : PublicKey → PublicKey → Prop} {db db' : Db} {now : Dur}
    (hl : Later (fun op => (∀ q, op.Submits q → P q.issuedBy q.issuedFor) ∧ (∀ k n, op ≠ .setRoot k n) ∧ ∀ t, op.time = some t → asI64 t.secs ≤ asI64 now.secs) db db') :
    AgreeOff P (db.snapshot now) (db'.snapshot now) ∧ db'.roots = db.roots := by
  have hq : Quiet (fun s s' : Db => AgreeOff P (s.snapshot now) (s'.snapshot now) ∧ s'.roots = s.roots) := by
    refine ⟨?_, ?_, ?_⟩
    · exact fun _ => ⟨⟨fun _ _ _ => Iff.rfl, fun _ _ _ => Iff.rfl, fun _ => Iff.rfl⟩, rfl⟩
    · exact fun _ _ _ h1 h2 => ⟨⟨fun k t hk => (h2.1.trusted k t hk).trans (h1.1.trusted k t hk),
        fun k k' hk => (h2.1.revoked k k' hk).trans (h1.1.revoked k k' hk), fun k => (h2.1.root k).trans (h1.1.root k)⟩, h2.2.trans h1.2⟩
    · exact fun _ _ => ⟨⟨fun _ _ _ => Iff.rfl, fun _ _ _ => Iff.rfl, fun _ => Iff.rfl⟩, rfl⟩
  induction hl with
  | refl => exact hq.refl _
  | weather fs _ ih => exact hq.trans _ _ _ ih (hq.faults _ _)
  | @step d op hop _ ih =>
    refine hq.trans _ _ _ ih (Op.run_steps hq op ?_ ?_ ?_ d)
    · intro t ht d
      refine ⟨⟨fun k tr _ => ?_, fun k k' _ => ?_, fun _ => Iff.rfl⟩, rfl⟩
      · show _ ∧ _ ↔ _ ∧ _
        rw [Db.stored_collect]
        refine ⟨fun h => ⟨h.1.1, h.2⟩, fun h => ⟨⟨h.1, fun a e => ?_⟩, h.2⟩⟩
        cases e
        exact lt_of_le_of_lt (hop.2.2 t ht) h.2
      · show (∃ r, _ ∧ _) ↔ ∃ r, _ ∧ _
        simp only [Db.stored_collect]
        simp
    · intro q hq hv _ d _
      have hs := hop.1 q ⟨hq, hv⟩
      refine ⟨⟨fun k tr hk => ?_, fun k k' hk => ?_, fun _ => Iff.rfl⟩, rfl⟩
      · show _ ∧ _ ↔ _ ∧ _
        rw [Db.stored_put]
        constructor
        · rintro ⟨h1 | h1, h2⟩
          · have e1 : k = q.issuedBy := by have := congrArg TrustRelation.issuedBy h1; rwa [TrustRelation.trunc_issuedBy] at this
            have e2 : tr.issuedFor = q.issuedFor := by have := congrArg TrustRelation.issuedFor h1; rwa [TrustRelation.trunc_issuedFor] at this
            exact absurd (e1 ▸ e2 ▸ hs) hk
          · exact ⟨h1.1, h2⟩
        · rintro ⟨h1, h2⟩
          refine ⟨Or.inr ⟨h1, fun he => ?_⟩, h2⟩
          have e1 : k = q.issuedBy := he.2
          have e2 : tr.issuedFor = q.issuedFor := he.1
          exact hk (e1 ▸ e2 ▸ hs)
      · show (∃ r, _ ∧ _) ↔ ∃ r, _ ∧ _
        refine exists_congr fun r => ?_
        rw [Db.stored_put]
        constructor
        · rintro ⟨h1 | h1, h2, h3⟩
          · have e1 : r.revokedBy = q.issuedBy := by have := congrArg TrustRelation.issuedBy h1; rwa [TrustRelation.trunc_issuedBy] at this
            have e2 : r.pk = q.issuedFor := by have := congrArg TrustRelation.issuedFor h1; rwa [TrustRelation.trunc_issuedFor] at this
            rw [← h2, ← h3, e1, e2] at hk
            exact absurd hs hk
          · exact ⟨h1.1, h2, h3⟩
        · rintro ⟨h1, h2, h3⟩
          refine ⟨Or.inr ⟨h1, fun he => ?_⟩, h2, h3⟩
          have e1 : r.revokedBy = q.issuedBy := he.2
          have e2 : r.pk = q.issuedFor := he.1
          rw [← h2, ← h3, e1, e2] at hk
          exact hk hs
    · exact fun pk n e => absurd e (hop.2.1 pk n)

/-- Where a certificate visits a key twice, it can be shortened. -/
theorem shorten {g : Spec.Snapshot} {X : PublicKey} {c : Certificate} (h : Spec.Admissible g X c) {i : Nat} {a b : Trust} (hi : 0 < i) (ha : c.chain[i]? = some a)
    (hb : c.chain[i + 1]? = some b) (e : a.issuedFor = b.issuedFor) : Spec.Admissible g X ⟨c.chain.eraseIdx (i + 1)⟩ := by
  have hlt : i + 1 < c.chain.length := (List.getElem?_eq_some_iff.mp hb).1
  have hlen : (c.chain.eraseIdx (i + 1)).length = c.chain.length - 1 := by rw [List.length_eraseIdx, if_pos hlt]
  have hget : ∀ (j : Nat) x, (c.chain.eraseIdx (i + 1))[j]? = some x → (j < i + 1 ∧ c.chain[j]? = some x) ∨ (i + 1 ≤ j ∧ c.chain[j + 1]? = some x) := by
    intro j x hx
    rw [List.getElem?_eraseIdx] at hx
    split at hx
    · exact .inl ⟨by assumption, hx⟩
    · exact .inr ⟨by omega, hx⟩
  refine ⟨⟨by rw [hlen]; omega, fun t h0 => ?_, fun j x y hx hy => ?_, fun t ht => ?_⟩, fun p q x y hpq hx hy exy => ?_, fun p q x y hpq hx hy hne => ?_⟩
  · rcases hget _ _ h0 with ⟨-, h0⟩ | ⟨hj, -⟩
    · exact h.linked.root t h0
    · omega
  · rcases hget _ _ hx with ⟨hj, hx'⟩ | ⟨hj, hx'⟩
    · rcases hget _ _ hy with ⟨hj', hy'⟩ | ⟨hj', hy'⟩
      · exact h.linked.link j x y hx' hy'
      · obtain rfl : j = i := by omega
        rw [ha] at hx'
        cases hx'
        rw [e]
        exact h.linked.link (j + 1) b y hb hy'
    · rcases hget _ _ hy with ⟨hj', hy'⟩ | ⟨hj', hy'⟩
      · omega
      · exact h.linked.link (j + 1) x y hx' hy'
  · rw [hlen] at ht
    rcases hget _ _ ht with ⟨hj, ht'⟩ | ⟨hj, ht'⟩
    · obtain rfl : i = c.chain.length - 1 - 1 := by omega
      rw [ha] at ht'
      cases ht'
      rw [e]
      exact h.linked.target b (by rw [show c.chain.length - 1 = c.chain.length - 1 - 1 + 1 by omega]; exact hb)
    · exact h.linked.target t (by rw [show c.chain.length - 1 = c.chain.length - 1 - 1 + 1 by omega]; exact ht')
  · rcases hget _ _ hx with ⟨hp, hx⟩ | ⟨hp, hx⟩ <;> rcases hget _ _ hy with ⟨hq, hy⟩ | ⟨hq, hy⟩
    · exact h.noRevisit p q x y hpq hx hy exy
    · have := h.noRevisit p (q + 1) x y (by omega) hx hy exy
      omega
    · omega
    · have := h.noRevisit (p + 1) (q + 1) x y (by omega) hx hy exy
      omega
  · dsimp only at hne
    rw [hlen] at hne
    rcases hget _ _ hx with ⟨hp, hx'⟩ | ⟨hp, hx'⟩ <;> rcases hget _ _ hy with ⟨hq, hy'⟩ | ⟨hq, hy'⟩
    · by_cases hl : q + 2 = c.chain.length
      · obtain rfl : q = i := by omega
        rw [ha] at hy'
        cases hy'
        rw [e]
        exact h.unrevoked p (q + 1) x b (by omega) hx' hb (by omega)
      · exact h.unrevoked p q x y hpq hx' hy' hl
    · exact h.unrevoked p (q + 1) x y (by omega) hx' hy' (by omega)
    · omega
    · exact h.unrevoked (p + 1) (q + 1) x y (by omega) hx' hy' (by omega)

/-- Every certificate can be tidied up so that it visits no key twice. -/
theorem tidy {g : Spec.Snapshot} {X : PublicKey} : ∀ (n : Nat) {c : Certificate}, c.chain.length = n → Spec.Admissible g X c →
    ∃ c', Spec.Admissible g X c' ∧ (∀ (i j : Nat) a b, i < j → c'.chain[i]? = some a → c'.chain[j]? = some b → a.issuedFor ≠ b.issuedFor) ∧
      (∀ k, (∃ t ∈ c'.chain, t.issuedFor = k) ↔ ∃ t ∈ c.chain, t.issuedFor = k) ∧ c'.chain[0]? = c.chain[0]? ∧ c'.chain.length ≤ c.chain.length := by
  intro n
  induction n with
  | zero =>
    intro c hc h
    have := h.linked.long
    omega
  | succ n ih =>
    intro c hc h
    by_cases hd : ∀ (i j : Nat) a b, i < j → c.chain[i]? = some a → c.chain[j]? = some b → a.issuedFor ≠ b.issuedFor
    · exact ⟨c, h, hd, fun _ => Iff.rfl, rfl, Nat.le_refl _⟩
    · push Not at hd
      obtain ⟨i, j, a, b, hij, ha, hb, e⟩ := hd
      obtain ⟨hi, rfl⟩ := h.noRevisit i j a b hij ha hb e
      have hlt : i + 1 < c.chain.length := (List.getElem?_eq_some_iff.mp hb).1
      have hlen : (c.chain.eraseIdx (i + 1)).length = c.chain.length - 1 := by rw [List.length_eraseIdx, if_pos hlt]
      obtain ⟨c', h1, h2, h3, h4, h5⟩ := ih (c := ⟨c.chain.eraseIdx (i + 1)⟩) (by dsimp only; omega) (shorten h hi ha hb e)
      dsimp only at h3 h4 h5
      refine ⟨c', h1, h2, fun k => (h3 k).trans ⟨?_, ?_⟩, h4.trans ?_, by omega⟩
      · rintro ⟨t, ht, rfl⟩
        exact ⟨t, List.mem_of_mem_eraseIdx ht, rfl⟩
      · rintro ⟨t, ht, rfl⟩
        obtain ⟨m, hm⟩ := List.mem_iff_getElem?.mp ht
        rcases Nat.lt_trichotomy m (i + 1) with hmi | rfl | hmi
        · exact ⟨t, List.mem_iff_getElem?.mpr ⟨m, by rw [List.getElem?_eraseIdx, if_pos hmi]; exact hm⟩, rfl⟩
        · rw [hb] at hm
          cases hm
          exact ⟨a, List.mem_iff_getElem?.mpr ⟨i, by rw [List.getElem?_eraseIdx, if_pos (by omega)]; exact ha⟩, e⟩
        · exact ⟨t, List.mem_iff_getElem?.mpr ⟨m - 1, by rw [List.getElem?_eraseIdx, if_neg (by omega), Nat.sub_add_cancel (by omega)]; exact hm⟩, rfl⟩
      · rw [List.getElem?_eraseIdx, if_pos (by omega)]

theorem same {db db' : Db} {now : Dur} (h : AgreeOff (fun a b => a = b ∧ db.rootFactor a = none) (db.snapshot now) (db'.snapshot now))
    (hroots : db'.roots = db.roots) {X : PublicKey} {c : Certificate} (hc : Spec.Admissible (db'.snapshot now) X c) :
    ∃ c', Spec.Admissible (db.snapshot now) X c' ∧ (∀ k, (∃ t ∈ c'.chain, t.issuedFor = k) ↔ ∃ t ∈ c.chain, t.issuedFor = k) ∧
      db'.certWeight c ≤ db.certWeight c' := by
  obtain ⟨c', h1, h2, h3, h4, h5⟩ := tidy _ rfl hc
  refine ⟨c', ⟨⟨h1.linked.long, fun t h0 => ?_, fun i x y hx hy => ?_, h1.linked.target⟩, h1.noRevisit, fun i j x y hij hx hy hne hv => ?_⟩, h3,
    (Db.certWeight_shorter hc h4 h5).trans (le_of_eq (Db.certWeight_congr hroots rfl))⟩
  · obtain ⟨hr, ht⟩ := h1.linked.root t h0
    have hr := (h.root _).mp hr
    refine ⟨hr, (h.trusted _ _ ?_).mp ht⟩
    rintro ⟨-, hn⟩
    have := Db.rootFactor_isSome.mpr hr
    rw [hn] at this
    cases this
  · exact (h.trusted _ _ fun e => h2 i (i + 1) x y (Nat.lt_succ_self i) hx hy e.1).mp (h1.linked.link i x y hx hy)
  · exact h1.unrevoked i j x y hij hx hy hne ((h.revoked _ _ fun e => h2 i j x y hij hx hy e.1).mpr hv)

end SelfTalk
open SelfTalk

/-- **C141**: as long as only keys that are not roots speak, and only about themselves, all weights stay the same, and those conferred through any issuer. -/
theorem C141_self_talk {db db' : Db} {now : Dur} (hr : Reachable db) (hl : Later (Spec.SelfTalk db now) db db')
    (hn : db.relations.length + 16 < 2 ^ 32) (hn' : db'.relations.length + 16 < 2 ^ 32) (X : PublicKey) :
    (∀ w w' s s', TrustGraph.weight X now db = (.ok w, s) → TrustGraph.weight X now db' = (.ok w', s') → w' = w) ∧
    (∀ issuer w w' s s', TrustGraph.weightFrom X issuer now db = (.ok w, s) → TrustGraph.weightFrom X issuer now db' = (.ok w', s') → w' = w) ∧
    (∀ t w w' s s', TrustGraph.addTrust t X now db = (.ok w, s) → TrustGraph.addTrust t X now db' = (.ok w', s') → w' = w) := by
  have hh := hr.healthy
  have hh' := (hl.reachable hr).healthy
  obtain ⟨h1, hroots⟩ := AgreeOff.of_later (P := fun a b => a = b ∧ db.rootFactor a = none) hl
  have h2 : AgreeOff (fun a b => a = b ∧ db'.rootFactor a = none) (db'.snapshot now) (db.snapshot now) := by
    have e : (fun a b => a = b ∧ db'.rootFactor a = none) = fun a b => a = b ∧ db.rootFactor a = none := by
      funext a b
      rw [Db.rootFactor_congr hroots]
    rw [e]
    exact h1.symm
  have hw : ∀ w w' s s', TrustGraph.weight X now db = (.ok w, s) → TrustGraph.weight X now db' = (.ok w', s') → w' = w := by
    intro w w' s s' h h'
    have g := weight_ok hh hn h
    have g' := weight_ok hh' hn' h'
    apply le_antisymm
    · rcases g'.1 with e | ⟨f, hf, e⟩ | ⟨c, hc, e⟩
      · rw [e]; exact Nat.zero_le _
      · exact g.2 (.inr (.inl ⟨f, (Db.rootFactor_congr hroots X).symm.trans hf, e⟩))
      · obtain ⟨c', h3, -, h4⟩ := same h1 hroots hc
        exact e ▸ h4.trans (g.2 (.inr (.inr ⟨c', h3, rfl⟩)))
    · rcases g.1 with e | ⟨f, hf, e⟩ | ⟨c, hc, e⟩
      · rw [e]; exact Nat.zero_le _
      · exact g'.2 (.inr (.inl ⟨f, (Db.rootFactor_congr hroots X).trans hf, e⟩))
      · obtain ⟨c', h3, -, h4⟩ := same h2 hroots.symm hc
        exact e ▸ h4.trans (g'.2 (.inr (.inr ⟨c', h3, rfl⟩)))
  refine ⟨hw, ?_, ?_⟩
  · intro issuer w w' s s' h h'
    have g := weightFrom_ok hh hn h
    have g' := weightFrom_ok hh' hn' h'
    apply le_antisymm
    · rcases g'.1 with e | ⟨c, hc, hX, e⟩
      · rw [e]; exact Nat.zero_le _
      · obtain ⟨c', h3, h5, h4⟩ := same h1 hroots hc
        exact e ▸ h4.trans (g.2 (.inr ⟨c', h3, (h5 issuer).mpr hX, rfl⟩))
    · rcases g.1 with e | ⟨c, hc, hX, e⟩
      · rw [e]; exact Nat.zero_le _
      · obtain ⟨c', h3, h5, h4⟩ := same h2 hroots.symm hc
        exact e ▸ h4.trans (g'.2 (.inr ⟨c', h3, (h5 issuer).mpr hX, rfl⟩))
  · intro t w w' s s' h h'
    obtain ⟨-, x, s1, h1, e1, -⟩ := C20_returned_weight h
    obtain ⟨-, x', s1', h1', e1', -⟩ := C20_returned_weight h'
    rw [e1, e1', hw x x' _ _ h1 h1']

/-- **C141**: a certificate that visits a key twice is redundant: a shorter one for the same key, with the same root and the same keys on it, visits each key once, and is worth
at least as much. -/
theorem C141_redundant {db s : Db} {X : PublicKey} {now : Dur} {cs : List Certificate} (hr : Reachable db) (h : TrustGraph.getAllCerts X now db = (.ok cs, s)) :
    ∀ c ∈ cs, ∃ c' ∈ cs, c'.keys.Nodup ∧ (∀ k, k ∈ c'.keys ↔ k ∈ c.keys) ∧ c'.keys.head? = c.keys.head? ∧ c'.chain.length ≤ c.chain.length ∧ db.certWeight c ≤ db.certWeight c' := by
  have hm := (C02_complete_exactly_once hr.healthy h).2
  intro c hc
  have hc := (hm c).mp hc
  obtain ⟨c', h1, h2, h3, h4, h5⟩ := tidy _ rfl hc
  refine ⟨c', (hm c').mpr h1, ?_, fun k => ?_, ?_, h5, Db.certWeight_shorter hc h4 h5⟩
  · refine List.pairwise_iff_getElem.mpr fun i j hi hj hij => ?_
    simp only [Certificate.keys, List.length_map] at hi hj
    simpa [Certificate.keys] using h2 i j _ _ hij (List.getElem?_eq_getElem hi) (List.getElem?_eq_getElem hj)
  · simpa only [Certificate.keys, List.mem_map] using h3 k
  · rw [Certificate.keys, Certificate.keys, List.head?_map, List.head?_map, List.head?_eq_getElem?, List.head?_eq_getElem?, h4]

end TG
