/-
What keys can confer when they may have been revoked (C96, C97): the bounds hold without provisos if the weight of the issuer is replaced by the weight it
would have if nobody had revoked it.
-/
import Verif.Props.ContainmentWitness

namespace TG
variable [Env]

/-- The database without the revocations of key `a`. -/
def Db.pardon (db : Db) (a : PublicKey) : Db :=
  { db with relations := db.relations.filter fun r => ¬ (r.relationType = revocationType ∧ r.issuedFor = keyText a) }

theorem Db.Healthy.pardon {db : Db} (h : db.Healthy) (a : PublicKey) : (db.pardon a).Healthy :=
  ⟨fun row hr => h.rows row (List.mem_filter.mp hr).1, h.unique.filter _, h.roots⟩

theorem Db.pardon_stored {db : Db} {a : PublicKey} {q : TrustRelation} :
    (db.pardon a).Stored q ↔ db.Stored q ∧ ∀ r, q = .revocation r → r.pk ≠ a := by
  have key : (Sqlite.toRow q).relationType = revocationType ∧ (Sqlite.toRow q).issuedFor = keyText a ↔ ∃ r, q = .revocation r ∧ r.pk = a := by
    rcases q with x | r
    · simp [Sqlite.toRow, authType, revocationType]
    · simp only [Sqlite.toRow, true_and, TrustRelation.revocation.injEq, exists_eq_left']
      exact ⟨fun h => keyText_inj h, fun h => by rw [← h]; rfl⟩
  unfold Db.Stored Db.pardon
  rw [List.mem_filter, decide_eq_true_iff, key]
  simp only [not_exists, not_and, and_assoc]

theorem Db.pardon_trusted {db : Db} {a k : PublicKey} {now : Dur} {t : Trust} :
    ((db.pardon a).snapshot now).trusted k t ↔ (db.snapshot now).trusted k t := by
  show _ ∧ _ ↔ _ ∧ _
  rw [Db.pardon_stored]
  simp

theorem Db.pardon_revoked {db : Db} {a k k' : PublicKey} {now : Dur} :
    ((db.pardon a).snapshot now).revoked k k' ↔ (db.snapshot now).revoked k k' ∧ k' ≠ a := by
  show (∃ r, _ ∧ _) ↔ (∃ r, _ ∧ _) ∧ _
  simp only [Db.pardon_stored]
  constructor
  · rintro ⟨r, ⟨h1, h2⟩, h3, rfl⟩
    exact ⟨⟨r, h1, h3, rfl⟩, h2 r rfl⟩
  · rintro ⟨⟨r, h1, h3, rfl⟩, h2⟩
    exact ⟨r, ⟨h1, fun _ e => by cases e; exact h2⟩, h3, rfl⟩

theorem Db.pardon_length (db : Db) (a : PublicKey) : (db.pardon a).relations.length ≤ db.relations.length := List.length_filter_le _ _

theorem Spec.Admissible.pardon {db : Db} {now : Dur} {a k : PublicKey} {c : Certificate} (h : Spec.Admissible (db.snapshot now) k c) :
    Spec.Admissible ((db.pardon a).snapshot now) k c where
  linked := {
    long := h.linked.long
    root := fun t ht => ⟨(h.linked.root t ht).1, Db.pardon_trusted.mpr (h.linked.root t ht).2⟩
    link := fun i x y hx hy => Db.pardon_trusted.mpr (h.linked.link i x y hx hy)
    target := h.linked.target }
  noRevisit := h.noRevisit
  unrevoked := fun i j x y hij hx hy hl hr => h.unrevoked i j x y hij hx hy hl (Db.pardon_revoked.mp hr).1

/-- **C96**, for all issuers: nobody confers more than half of the weight that they would have if nobody had revoked them. -/
theorem C96_half_pardoned {db s s' : Db} {pk a : PublicKey} {now : Dur} {w wa : Nat} (hr : Reachable db) (hn : db.relations.length + 16 < 2 ^ 32)
    (hne : a ≠ pk) (h : TrustGraph.weightFrom pk a now db = (.ok w, s)) (ha : TrustGraph.weight a now (db.pardon a) = (.ok wa, s')) :
    w ≤ max 1 (wa / 2) ∧ (0 < w → 0 < wa) := by
  have hg := weight_ok (hr.healthy.pardon a) (by have := db.pardon_length a; omega) ha
  rcases (weightFrom_ok hr.healthy hn h).1 with rfl | ⟨c, hc, ⟨t, ht, rfl⟩, rfl⟩
  · exact ⟨Nat.zero_le _, fun h => absurd h (lt_irrefl _)⟩
  · obtain ⟨i, t', hi, e, hlt⟩ := hc.index (List.mem_map_of_mem ht) hne
    rw [← e] at hg
    obtain ⟨h1, h2⟩ := Spec.half_of hg (fun t0 h0 => (Db.rootFactor_isSome (db := db)).mpr (hc.linked.root t0 h0).1) hi hlt fun hpos =>
      hc.pardon.upTo hi hpos fun p x hp hx _ hrv => (Db.pardon_revoked.mp hrv).2 rfl
    rw [Db.certWeight_congr (db := db) (db' := db.pardon t'.issuedFor) rfl rfl] at h1
    exact ⟨h1, fun _ => h2⟩

/-- Somebody whom nobody has revoked: the bound is half of their own weight (C96). -/
theorem Db.pardon_eq {db : Db} (hh : db.Healthy) {a : PublicKey} (h : ∀ r, db.Stored (.revocation r) → r.pk ≠ a) : db.pardon a = db := by
  unfold Db.pardon
  rw [List.filter_eq_self.mpr]
  intro row hrow
  obtain ⟨q, hw, rfl⟩ := hh.rows row hrow
  rcases q with x | r
  · simp [Sqlite.toRow, authType, revocationType]
  · have := h r ⟨hw, hrow⟩
    rw [decide_eq_true_iff]
    rintro ⟨-, e⟩
    exact this (keyText_inj e)

open Classical in
/-- **C97**, for all sets of keys: no key's weight rises above what it was, or half of the weight that some key of `S` would have had before if nobody had
revoked it. -/
theorem C97_containment_pardoned {S : PublicKey → Prop} {db db' s s' : Db} {target : PublicKey} {now : Dur} {w w' : Nat} (hr : Reachable db)
    (hf : db.NoFaults) (hn : db.relations.length + 16 < 2 ^ 32) (hn' : db'.relations.length + 16 < 2 ^ 32) (hl : Later (Spec.OnlyBy S) db db')
    (h : TrustGraph.weight target now db = (.ok w, s)) (h' : TrustGraph.weight target now db' = (.ok w', s')) :
    w' ≤ w ∨ ∃ a wa, S a ∧ TrustGraph.weight a now (db.pardon a) = (.ok wa, (db.pardon a).collect now) ∧ 0 < wa ∧ w' ≤ max 1 (wa / 2) := by
  obtain ⟨ht, hroots⟩ := Spec.Tampered.of_later hl now
  have hg := weight_ok hr.healthy hn h
  have hcw : ∀ c, db'.certWeight c = db.certWeight c := fun c => Db.certWeight_congr hroots rfl
  rcases (weight_ok (hl.reachable hr).healthy hn' h').1 with rfl | ⟨f, hf', rfl⟩ | ⟨c, hc, rfl⟩
  · exact .inl (Nat.zero_le _)
  · exact .inl (hg.2 (.inr (.inl ⟨f, (Db.rootFactor_congr hroots target).symm.trans hf', rfl⟩)))
  · rw [hcw]
    by_cases hS : ∃ i, i + 1 < c.chain.length ∧ ∃ t, c.chain[i]? = some t ∧ S t.issuedFor
    · right
      have hmin := @Nat.find_min _ _ hS
      obtain ⟨hlt, t, hi, hSt⟩ := Nat.find_spec hS
      generalize Nat.find hS = i at hmin hlt hi
      have hb : (db.pardon t.issuedFor).relations.length + 16 < 2 ^ 32 := by have := db.pardon_length t.issuedFor; omega
      obtain ⟨wa, hwa⟩ := Db.weight_returns (db := db.pardon t.issuedFor) (hr.healthy.pardon _) hf (.inr hb) t.issuedFor now
      have hsafe : ∀ (p : Nat) x, p < i → c.chain[p]? = some x → ¬ S x.issuedFor := fun p x hp hx hSx =>
        hmin hp ⟨by omega, x, hx, hSx⟩
      have htp : Spec.Tampered S ((db.pardon t.issuedFor).snapshot now) ((db'.pardon t.issuedFor).snapshot now) :=
        ⟨fun k x hk hx => Db.pardon_trusted.mpr (ht.trusted k x hk (Db.pardon_trusted.mp hx)),
          fun k k' hk => by rw [Db.pardon_revoked, Db.pardon_revoked, ht.revoked k k' hk], ht.root⟩
      obtain ⟨h1, h2⟩ := Spec.half_of (c := c) (weight_ok (hr.healthy.pardon _) hb hwa)
        (fun t0 h0 => by
          rw [← Db.rootFactor_congr (db := db.pardon t.issuedFor) hroots]
          exact Db.rootFactor_isSome.mpr (hc.linked.root t0 h0).1) hi hlt (fun hpos => by
          refine htp.admissible (hc.pardon.upTo hi hpos fun p x hp hx _ hrv => (Db.pardon_revoked.mp hrv).2 rfl) fun p x hx hlp => ?_
          dsimp only at hx hlp
          rw [List.length_take] at hlp
          rw [List.getElem?_take, if_pos (by omega)] at hx
          exact hsafe p x (by omega) hx)
      rw [Db.certWeight_congr (db := db) (db' := db.pardon t.issuedFor) rfl rfl] at h1
      exact ⟨t.issuedFor, wa, hSt, hwa, h2, h1⟩
    · left
      refine hg.2 (.inr (.inr ⟨c, ht.admissible hc fun i t hi hlt hSt => hS ⟨i, hlt, t, hi, hSt⟩, rfl⟩))

/-- **C97**, for all sets of keys: keys that would be without weight even if nobody had revoked them raise nobody's weight, however many there are. -/
theorem C97_sybils_pardoned {S : PublicKey → Prop} {db db' s s' : Db} {target : PublicKey} {now : Dur} {w w' : Nat} (hr : Reachable db)
    (hf : db.NoFaults) (hn : db.relations.length + 16 < 2 ^ 32) (hn' : db'.relations.length + 16 < 2 ^ 32) (hl : Later (Spec.OnlyBy S) db db')
    (hS : ∀ a, S a → ∃ s, TrustGraph.weight a now (db.pardon a) = (.ok 0, s))
    (h : TrustGraph.weight target now db = (.ok w, s)) (h' : TrustGraph.weight target now db' = (.ok w', s')) : w' ≤ w := by
  rcases C97_containment_pardoned hr hf hn hn' hl h h' with h1 | ⟨a, wa, ha, hwa, hpos, -⟩
  · exact h1
  · obtain ⟨_, h0⟩ := hS a ha
    rw [hwa] at h0
    cases h0
    exact absurd hpos (lt_irrefl _)

end TG

namespace TG
open TG.Toy Contain
set_option maxRecDepth 100000

/-- In the graph that refutes C96 and C97 the bound is attained: key 3, which has weight 2 and would have 256, confers 128. -/
example : (TrustGraph.weight (pk 3) (s 10) (Contain.db'.pardon (pk 3))).1 = .ok 256 ∧ (TrustGraph.weightFrom (pk 4) (pk 3) (s 10) Contain.db').1 = .ok 128 ∧
    (TrustGraph.weight (pk 3) (s 10) (Contain.db.pardon (pk 3))).1 = .ok 256 ∧ (TrustGraph.weight (pk 4) (s 10) Contain.db').1 = .ok 128 := by decide +kernel

/-- The theorems applied to it. -/
example : Reachable Contain.db ∧ Contain.db.NoFaults ∧ Contain.db.relations.length + 16 < 2 ^ 32 ∧ Contain.db'.relations.length + 16 < 2 ^ 32 ∧
    Later (Spec.OnlyBy (· = pk 3)) Contain.db Contain.db' := by
  refine ⟨Contain.reachable, show Contain.db.faults = [] by decide +kernel, by decide +kernel, by decide +kernel, .runAll _ ?_ _⟩
  intro op ho
  rw [List.mem_singleton.mp ho]
  exact ⟨fun q hq => by rw [List.mem_singleton.mp hq.1]; rfl, fun _ _ e => nomatch e⟩

/-- Key 7 has no weight, nor would it have any. -/
example : ∀ a, a = pk 7 → ∃ s', TrustGraph.weight a (s 10) (Contain.db.pardon a) = (.ok 0, s') := by
  rintro _ rfl
  exact ⟨_, pair (by decide +kernel)⟩

end TG
