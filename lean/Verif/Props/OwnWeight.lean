/-
Property C116: what a key signs does not change what the key itself is worth.
-/
import Verif.Props.Containment

namespace TG
variable [Env]

/-- A certificate that ends with a self-signed trust of its target is also one without this trust. -/
theorem Spec.Admissible.plain {g : Spec.Snapshot} {K : PublicKey} {c : Certificate} (hc : Spec.Admissible g K c) :
    ∃ c', Spec.Admissible g K c' ∧ (∀ (i : Nat) t, c'.chain[i]? = some t → i + 1 < c'.chain.length → t.issuedFor ≠ K) ∧
      (∀ k, (∃ t ∈ c'.chain, t.issuedFor = k) ↔ ∃ t ∈ c.chain, t.issuedFor = k) ∧ c'.chain[0]? = c.chain[0]? ∧ c'.chain.length ≤ c.chain.length ∧
      (c = c' ∨ ∃ t, t.issuedFor = K ∧ c.chain = c'.chain ++ [t]) := by
  by_cases hK : ∃ (i : Nat) (t : Trust), c.chain[i]? = some t ∧ i + 1 < c.chain.length ∧ t.issuedFor = K
  · obtain ⟨i, t, hi, hlt, hk⟩ := hK
    have hlast := List.getElem?_eq_getElem (l := c.chain) (i := c.chain.length - 1) (by omega)
    have hl := hc.linked.target _ hlast
    obtain ⟨h0, h1⟩ := hc.noRevisit i (c.chain.length - 1) t _ (by omega) hi hlast (hk.trans hl.symm)
    have hup := hc.upTo hi h0 (fun p a hp ha _ => by
      rw [hk, ← hl]
      exact hc.unrevoked p (c.chain.length - 1) a _ (by omega) ha hlast (by omega))
    rw [hk] at hup
    have hlen : (c.chain.take (i + 1)).length = i + 1 := by rw [List.length_take]; omega
    have hget : ∀ (j : Nat) a, (c.chain.take (i + 1))[j]? = some a → c.chain[j]? = some a := by
      intro j a h
      rw [List.getElem?_take] at h
      split at h
      · exact h
      · cases h
    refine ⟨_, hup, fun j a ha hj e => ?_, fun k => ⟨?_, ?_⟩, ?_, ?_, .inr ⟨_, hl, ?_⟩⟩
    · dsimp only at ha hj
      rw [hlen] at hj
      have := hc.noRevisit j (c.chain.length - 1) a _ (by omega) (hget _ _ ha) hlast (e.trans hl.symm)
      omega
    · rintro ⟨a, ha, e⟩
      exact ⟨a, List.mem_of_mem_take ha, e⟩
    · rintro ⟨a, ha, e⟩
      obtain ⟨j, hj⟩ := List.mem_iff_getElem?.mp ha
      have hjlt := (List.getElem?_eq_some_iff.mp hj).1
      by_cases hji : j = c.chain.length - 1
      · rw [hji, hlast] at hj
        cases hj
        exact ⟨t, List.mem_iff_getElem?.mpr ⟨i, by rw [List.getElem?_take, if_pos (by omega)]; exact hi⟩, hk.trans (hl.symm.trans e)⟩
      · exact ⟨a, List.mem_iff_getElem?.mpr ⟨j, by rw [List.getElem?_take, if_pos (by omega)]; exact hj⟩, e⟩
    · exact (List.getElem?_take).trans (if_pos (by omega))
    · dsimp only
      rw [hlen]
      omega
    · dsimp only
      have e := List.take_append_getElem (l := c.chain) (i := c.chain.length - 1) (by omega)
      rw [Nat.sub_add_cancel (by omega), List.take_length] at e
      rw [show i + 1 = c.chain.length - 1 by omega]
      exact e.symm
  · exact ⟨c, hc, fun i t hi hlt e => hK ⟨i, t, hi, hlt, e⟩, fun _ => Iff.rfl, rfl, le_refl _, .inl rfl⟩

theorem Db.certWeight_shorter {db : Db} {now : Dur} {K : PublicKey} {c c' : Certificate} (hc : Spec.Admissible (db.snapshot now) K c)
    (h0 : c'.chain[0]? = c.chain[0]?) (hlen : c'.chain.length ≤ c.chain.length) : db.certWeight c ≤ db.certWeight c' := by
  have hlong := hc.linked.long
  have hfirst : c.chain[0]? = some c.chain[0] := List.getElem?_eq_getElem (by omega)
  obtain ⟨f, hf⟩ := Option.isSome_iff_exists.mp (Db.rootFactor_isSome.mpr (hc.linked.root _ hfirst).1)
  rw [Db.certWeight_cons hfirst hf, Db.certWeight_cons (h0.trans hfirst) hf]
  exact Nat.pow_le_pow_right (by decide) (by omega)

/-- Of the certificates of a key, those that the key itself may have changed are not worth more than others. -/
theorem Spec.Tampered.own {K : PublicKey} {db db' : Db} {now : Dur} (h : Spec.Tampered (· = K) (db.snapshot now) (db'.snapshot now))
    (hroots : db'.roots = db.roots) {c : Certificate} (hc : Spec.Admissible (db'.snapshot now) K c) :
    ∃ c', Spec.Admissible (db.snapshot now) K c' ∧ (∀ k, (∃ t ∈ c'.chain, t.issuedFor = k) ↔ ∃ t ∈ c.chain, t.issuedFor = k) ∧
      db'.certWeight c ≤ db.certWeight c' := by
  obtain ⟨c', h1, h2, h3, h4, h5, -⟩ := hc.plain
  exact ⟨c', h.admissible h1 h2, h3, (Db.certWeight_shorter hc h4 h5).trans (le_of_eq (Db.certWeight_congr hroots rfl))⟩

/-- **C116.** Whatever a key signs (trusts and revocations of others and of itself), whenever (not after `now`) and how often it is handed over, together with
forged relations of others and queries, and whatever SQL statements fail: the key keeps its certificates, except that its own trust in itself may be
appended to them or vanish, and its weight, the weight it has from each issuer, and what `add_trust` returns for trusts it issues stay the same. -/
theorem C116_own_weight {K : PublicKey} {db db' : Db} {now : Dur} (hr : Reachable db)
    (hl : Later (fun op => Spec.OnlyBy (· = K) op ∧ ∀ t, op.time = some t → asI64 t.secs ≤ asI64 now.secs) db db') :
    (∀ cs cs' s s', TrustGraph.getAllCerts K now db = (.ok cs, s) → TrustGraph.getAllCerts K now db' = (.ok cs', s') →
      (∀ c : Certificate, K ∉ c.keys.dropLast → (c ∈ cs' ↔ c ∈ cs)) ∧
      ∀ c ∈ cs', c ∉ cs → ∃ c0 ∈ cs, ∃ t, t.issuedFor = K ∧ c.chain = c0.chain ++ [t]) ∧
    (db.relations.length + 16 < 2 ^ 32 → db'.relations.length + 16 < 2 ^ 32 →
      (∀ w w' s s', TrustGraph.weight K now db = (.ok w, s) → TrustGraph.weight K now db' = (.ok w', s') → w' = w) ∧
      (∀ X w w' s s', TrustGraph.weightFrom K X now db = (.ok w, s) → TrustGraph.weightFrom K X now db' = (.ok w', s') → w' = w) ∧
      (∀ t w w' s s', TrustGraph.addTrust t K now db = (.ok w, s) → TrustGraph.addTrust t K now db' = (.ok w', s') → w' = w)) := by
  have hl' : Later (Spec.OnlyBy (· = K)) db db' := hl.mono fun _ h => h.1
  have hh := hr.healthy
  have hh' := (hl'.reachable hr).healthy
  obtain ⟨h1, h2⟩ := Spec.Tampered.both hl
  have hroots := (Spec.Tampered.of_later hl' now).2
  refine ⟨?_, fun hn hn' => ?_⟩
  · intro cs cs' s s' h h'
    refine ⟨fun c hK => C97_untouched hr hl h h' c fun k hk e => hK (e ▸ hk), fun c hc hno => ?_⟩
    obtain ⟨c', h3, h4, -, -, -, h5⟩ := ((C02_complete_exactly_once hh' h').2 c |>.mp hc).plain
    have hc' := (C02_complete_exactly_once hh h).2 c' |>.mpr (h1.admissible h3 h4)
    rcases h5 with rfl | ⟨t, ht, e⟩
    · exact absurd hc' hno
    · exact ⟨c', hc', t, ht, e⟩
  · have hw : ∀ w w' s s', TrustGraph.weight K now db = (.ok w, s) → TrustGraph.weight K now db' = (.ok w', s') → w' = w := by
      intro w w' s s' h h'
      have g := weight_ok hh hn h
      have g' := weight_ok hh' hn' h'
      apply le_antisymm
      · rcases g'.1 with e | ⟨f, hf, e⟩ | ⟨c, hc, e⟩
        · rw [e]; exact Nat.zero_le _
        · exact g.2 (.inr (.inl ⟨f, (Db.rootFactor_congr hroots K).symm.trans hf, e⟩))
        · obtain ⟨c', h3, -, h4⟩ := h1.own hroots hc
          exact e ▸ h4.trans (g.2 (.inr (.inr ⟨c', h3, rfl⟩)))
      · rcases g.1 with e | ⟨f, hf, e⟩ | ⟨c, hc, e⟩
        · rw [e]; exact Nat.zero_le _
        · exact g'.2 (.inr (.inl ⟨f, (Db.rootFactor_congr hroots K).trans hf, e⟩))
        · obtain ⟨c', h3, -, h4⟩ := h2.own hroots.symm hc
          exact e ▸ h4.trans (g'.2 (.inr (.inr ⟨c', h3, rfl⟩)))
    refine ⟨hw, ?_, ?_⟩
    · intro X w w' s s' h h'
      have g := weightFrom_ok hh hn h
      have g' := weightFrom_ok hh' hn' h'
      apply le_antisymm
      · rcases g'.1 with e | ⟨c, hc, hX, e⟩
        · rw [e]; exact Nat.zero_le _
        · obtain ⟨c', h3, h5, h4⟩ := h1.own hroots hc
          exact e ▸ h4.trans (g.2 (.inr ⟨c', h3, (h5 X).mpr hX, rfl⟩))
      · rcases g.1 with e | ⟨c, hc, hX, e⟩
        · rw [e]; exact Nat.zero_le _
        · obtain ⟨c', h3, h5, h4⟩ := h2.own hroots.symm hc
          exact e ▸ h4.trans (g'.2 (.inr ⟨c', h3, (h5 X).mpr hX, rfl⟩))
    · intro t w w' s s' h h'
      obtain ⟨-, x, s1, h1, e1, -⟩ := C20_returned_weight h
      obtain ⟨-, x', s1', h1', e1', -⟩ := C20_returned_weight h'
      rw [e1, e1', hw x x' _ _ h1 h1']

end TG
