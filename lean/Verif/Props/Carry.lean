/-
Certificates carried from one node to another: C95.
-/
import Verif.Props.Import
import Verif.Props.Certs
import Verif.Props.Updates

namespace TG
variable [Env]

/-- The certificate is not longer than its root allows: at most `max_chain_len` (which is `16 - f`) trusts after the root trust. -/
def Spec.WithinLimit (db : Db) (c : Certificate) : Prop :=
  ∀ t f, c.chain[0]? = some t → db.rootFactor t.issuedFor = some f → c.chain.length ≤ 16 - f + 1

/-- A new node `B` with the roots of node `A`, and certificates, each with the time at which it will be imported into `B`. -/
structure Spec.Carried (A B : Db) (asked : Dur) (cs : List (Certificate × Dur)) : Prop where
  /-- Nothing is stored on `B`. -/
  empty : ∀ r, ¬ B.Stored r
  /-- The same roots. -/
  roots : ∀ k, B.rootFactor k = A.rootFactor k
  /-- `A` returned each certificate, for some key. -/
  returned : ∀ p ∈ cs, ∃ k certs s, TrustGraph.getAllCerts k asked A = (.ok certs, s) ∧ p.1 ∈ certs
  limit : ∀ p ∈ cs, Spec.WithinLimit A p.1
  /-- The trusts live until all is done. -/
  live : ∀ p ∈ cs, ∀ q ∈ cs, ∀ t ∈ p.1.chain, Spec.Live t q.2
  time : ∀ q ∈ cs, q.2.secs.toNat < 2 ^ 63

/-- The trusts of a linked chain, with their issuers, are present. -/
theorem Spec.Linked.edge {g : Spec.Snapshot} {k k' : PublicKey} {ts : List Trust} {t : Trust} (h : Spec.Linked g k ts) (he : Spec.Edge ts k' t) :
    g.trusted k' t := by
  obtain ⟨i, hk, ht⟩ := he
  rcases i with _ | i
  · rw [Spec.edge_zero ht] at hk
    cases hk
    exact (h.root t ht).2
  · have hlt := (List.getElem?_eq_some_iff.mp ht).1
    have ha : ts[i]? = some ts[i] := List.getElem?_eq_getElem _
    rw [Spec.issuers_succ ha hlt] at hk
    cases hk
    exact h.link i _ t ha ht

/-- Every trust of a linked chain is present. -/
theorem Spec.Linked.mem {g : Spec.Snapshot} {k : PublicKey} {ts : List Trust} {t : Trust} (h : Spec.Linked g k ts) (ht : t ∈ ts) :
    ∃ k', g.trusted k' t := by
  obtain ⟨i, hi⟩ := List.getElem?_of_mem ht
  have hlt : i < (Spec.issuers ts).length := by
    rw [Spec.issuers_length]; exact (List.getElem?_eq_some_iff.mp hi).1
  exact ⟨_, h.edge ⟨i, List.getElem?_eq_getElem hlt, hi⟩⟩

theorem Spec.Carried.admissible {A B : Db} {asked : Dur} {cs : List (Certificate × Dur)} (h : Spec.Carried A B asked cs) (hA : A.Healthy)
    {p : Certificate × Dur} (hp : p ∈ cs) : ∃ k, Spec.Admissible (A.snapshot asked) k p.1 := by
  obtain ⟨k, certs, s, hg, hm⟩ := h.returned p hp
  exact ⟨k, ((C02_complete_exactly_once hA hg).2 _).mp hm⟩

theorem Spec.Carried.bundle {A B : Db} {asked : Dur} {cs : List (Certificate × Dur)} (h : Spec.Carried A B asked cs) (hA : Reachable A) :
    Spec.Bundle B cs where
  each p hp q hq := by
    obtain ⟨k, ha⟩ := h.admissible hA.healthy hp
    refine ⟨ha.linked.long, ?_, ?_, h.live p hp q hq, ?_, ha.noRevisit, ?_, ?_⟩
    · intro t ht
      obtain ⟨f, hf⟩ := Option.isSome_iff_exists.mp (Db.rootFactor_isSome.mpr (ha.linked.root t ht).1)
      exact ⟨f, (h.roots _).trans hf, h.limit p hp t f ht hf⟩
    · intro k' t he
      rw [Trust.verify_iff]
      exact ⟨live_total (h.time q hq) (h.live p hp q hq t he.mem), hA.verified _ (ha.linked.edge he).1⟩
    · intro t ht
      obtain ⟨_, ⟨⟨h1, h2⟩, -⟩, -⟩ := ha.linked.mem ht
      exact ⟨h2, h1⟩
    · rintro i j a b - - - ⟨r, hr, -⟩
      exact h.empty _ hr
    · intro _ _ _ r hr
      exact absurd hr (h.empty r)
  agree p hp q hq k t t' he he' e := by
    obtain ⟨_, ha⟩ := h.admissible hA.healthy hp
    obtain ⟨_, ha'⟩ := h.admissible hA.healthy hq
    have := hA.healthy.stored_unique (ha.linked.edge he).1 (ha'.linked.edge he').1 e rfl
    cases this
    rfl

theorem Db.Healthy.relations_empty {B : Db} (hB : B.Healthy) (h : ∀ r, ¬ B.Stored r) : B.relations = [] := by
  rcases hr : B.relations with _ | ⟨row, rest⟩
  · rfl
  · have hm : row ∈ B.relations := by rw [hr]; exact .head _
    obtain ⟨r, hw, rfl⟩ := hB.rows row hm
    exact absurd ⟨hw, hm⟩ (h r)

/-- The import succeeds, and what it leaves. -/
theorem Spec.Carried.imported {A B : Db} {asked : Dur} {cs : List (Certificate × Dur)} (h : Spec.Carried A B asked cs) (hA : Reachable A)
    (hB : Reachable B) (hf : B.NoFaults) (hn : (cs.map (·.1.chain.length)).sum + 16 < 2 ^ 32) :
    ∃ B', addAll cs B = (.ok (), B') ∧ Imported B cs B' :=
  import_addAll hB.healthy hf (h.bundle hA) (by rw [hB.healthy.relations_empty h.empty, List.length_nil]; omega)

/-- **C95**, carrying: certificates that node `A` returned can be imported into a new node with the same roots, in any order.  It then holds exactly their
trusts, and returns each certificate for its last key as long as its trusts live. -/
theorem C95_carry {A B : Db} {asked : Dur} {cs : List (Certificate × Dur)} (hA : Reachable A) (hB : Reachable B) (hf : B.NoFaults)
    (h : Spec.Carried A B asked cs) (hn : (cs.map (·.1.chain.length)).sum + 16 < 2 ^ 32) :
    ∃ B', addAll cs B = (.ok (), B') ∧
      (∀ r, B'.Stored r ↔ ∃ p ∈ cs, ∃ k t, Spec.Edge p.1.chain k t ∧ r = .auth ⟨t, k⟩) ∧
      ∀ p ∈ cs, ∀ last, p.1.chain.getLast? = some last → ∀ later : Dur, (∀ t ∈ p.1.chain, Spec.Live t later) →
        ∃ certs s, TrustGraph.getAllCerts last.issuedFor later B' = (.ok certs, s) ∧ p.1 ∈ certs := by
  obtain ⟨B', h1, h2⟩ := h.imported hA hB hf hn
  refine ⟨B', h1, fun r => ?_, fun p hp last hl later hlive => ?_⟩
  · rw [h2.stored]
    constructor
    · rintro (h' | ⟨hs, -⟩)
      · exact h'
      · exact absurd hs (h.empty r)
    · exact .inl
  · rw [List.getLast?_eq_getElem?] at hl
    exact ⟨_, _, Db.getAllCerts_eq h2.healthy h2.noFaults _ _,
      (Db.mem_certs_iff h2.healthy _ _ _).mpr (h2.admissible hp ((h.bundle hA).each p hp p hp) hlive hl)⟩

/-- **C95**, weights: once all certificates that `A` returned for a key have been carried, the key has on the new node at least the weight that it had on
`A`, and exactly that weight if, on `A`, no key of the carried certificates has revoked another.  Revocations are not carried, so in general the weight can
be greater: `C95_weight_fails`. -/
theorem C95_weight_partial {A A' A'' B B' B'' : Db} {asked : Dur} {cs : List (Certificate × Dur)} {k : PublicKey} {certs : List Certificate}
    {wA wB : Nat} (hA : Reachable A) (hB : Reachable B) (hf : B.NoFaults) (h : Spec.Carried A B asked cs)
    (hn : (cs.map (·.1.chain.length)).sum + 16 < 2 ^ 32) (hnA : A.relations.length + 16 < 2 ^ 32)
    (hget : TrustGraph.getAllCerts k asked A = (.ok certs, A')) (hall : ∀ c ∈ certs, ∃ p ∈ cs, p.1 = c)
    (hwA : TrustGraph.weight k asked A = (.ok wA, A''))
    (hadd : addAll cs B = (.ok (), B')) (hwB : TrustGraph.weight k asked B' = (.ok wB, B'')) :
    wA ≤ wB ∧
      ((∀ p ∈ cs, ∀ q ∈ cs, ∀ a ∈ p.1.keys, ∀ b ∈ q.1.keys, ∀ r : Revocation, A.Stored (.revocation r) → r.revokedBy = a → r.pk ≠ b) → wB = wA) := by
  obtain ⟨d, h1, h2⟩ := h.imported hA hB hf hn
  rw [hadd] at h1
  cases h1
  have hlen : B'.relations.length + 16 < 2 ^ 32 := by
    have := h2.length
    rw [hB.healthy.relations_empty h.empty, List.length_nil] at this
    omega
  have hgA := weight_ok hA.healthy hnA hwA
  have hgB := weight_ok h2.healthy hlen hwB
  have hfac : ∀ k, B'.rootFactor k = A.rootFactor k := fun k => (h2.rootFactor k).trans (h.roots k)
  have hcw : ∀ c, B'.certWeight c = A.certWeight c := by
    intro c
    unfold Db.certWeight
    rcases c.chain with _ | ⟨t, ts⟩
    · rfl
    · dsimp only
      rw [hfac]
  have hst : ∀ r, B'.Stored r ↔ ∃ p ∈ cs, ∃ k t, Spec.Edge p.1.chain k t ∧ r = .auth ⟨t, k⟩ := by
    intro r
    rw [h2.stored]
    exact ⟨fun h' => h'.elim id fun h' => absurd h'.1 (h.empty r), .inl⟩
  have hle : wA ≤ wB := by
    rcases hgA.1 with rfl | ⟨f, hf, rfl⟩ | ⟨c, hc, rfl⟩
    · exact Nat.zero_le _
    · exact hgB.2 (.inr (.inl ⟨f, (hfac k).trans hf, rfl⟩))
    · obtain ⟨p, hp, rfl⟩ := hall c (((C02_complete_exactly_once hA.healthy hget).2 c).mpr hc)
      have hlast := List.getElem?_eq_getElem (l := p.1.chain) (i := p.1.chain.length - 1) (by have := hc.linked.long; omega)
      have := h2.admissible hp ((h.bundle hA).each p hp p hp) (fun t ht => (hc.linked.mem ht).elim fun _ ht => ht.2) hlast
      rw [hc.linked.target _ hlast] at this
      exact hgB.2 (.inr (.inr ⟨p.1, this, (hcw _).symm⟩))
  refine ⟨hle, fun hno => Nat.le_antisymm ?_ hle⟩
  rcases hgB.1 with rfl | ⟨f, hf, rfl⟩ | ⟨c, hc, rfl⟩
  · exact Nat.zero_le _
  · exact hgA.2 (.inr (.inl ⟨f, (hfac k).symm.trans hf, rfl⟩))
  · have hsub : ∀ r, B'.Stored r → A.Stored r := by
      intro r hr
      obtain ⟨p, hp, k', t, he, rfl⟩ := (hst r).mp hr
      obtain ⟨_, ha⟩ := h.admissible hA.healthy hp
      exact (ha.linked.edge he).1
    have hkey : ∀ t ∈ c.chain, ∃ p ∈ cs, t.issuedFor ∈ p.1.keys := by
      intro t ht
      obtain ⟨k', hs, -⟩ := hc.linked.mem ht
      obtain ⟨p, hp, _, t', he, e⟩ := (hst _).mp hs
      cases e
      exact ⟨p, hp, List.mem_map_of_mem he.mem⟩
    refine hgA.2 (.inr (.inr ⟨c, ⟨⟨hc.linked.long, ?_, ?_, hc.linked.target⟩, hc.noRevisit, ?_⟩, hcw c⟩))
    · intro t ht
      obtain ⟨hr, hs, hl⟩ := hc.linked.root t ht
      exact ⟨Db.rootFactor_isSome.mp (by rw [← hfac]; exact Db.rootFactor_isSome.mpr hr), hsub _ hs, hl⟩
    · intro i a b ha hb
      obtain ⟨hs, hl⟩ := hc.linked.link i a b ha hb
      exact ⟨hsub _ hs, hl⟩
    · rintro i j a b - ha hb - ⟨r, hr, ea, eb⟩
      obtain ⟨p, hp, hka⟩ := hkey a (List.mem_of_getElem? ha)
      obtain ⟨q, hq, hkb⟩ := hkey b (List.mem_of_getElem? hb)
      exact hno p hp q hq _ hka _ hkb r hr ea eb

end TG
