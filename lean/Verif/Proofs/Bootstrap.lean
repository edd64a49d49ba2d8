/-
Chains of two and three trusts, and the trusts of the bootstrap certificates.
-/
import Verif.Spec.Bootstrap
import Verif.Proofs.Bundle

namespace TG
variable [Env]

theorem Spec.edge_pair {a b : Trust} {k : PublicKey} {t : Trust} :
    Spec.Edge [a, b] k t ↔ (k = a.issuedFor ∧ t = a) ∨ (k = a.issuedFor ∧ t = b) := by
  constructor
  · rintro ⟨i, h1, h2⟩
    rcases i with _ | _ | i
    · cases h1; cases h2; exact .inl ⟨rfl, rfl⟩
    · cases h1; cases h2; exact .inr ⟨rfl, rfl⟩
    · simp at h2
  · rintro (⟨rfl, rfl⟩ | ⟨rfl, rfl⟩)
    · exact ⟨0, rfl, rfl⟩
    · exact ⟨1, rfl, rfl⟩

theorem Spec.edge_triple {a b c : Trust} {k : PublicKey} {t : Trust} :
    Spec.Edge [a, b, c] k t ↔ (k = a.issuedFor ∧ t = a) ∨ (k = a.issuedFor ∧ t = b) ∨ (k = b.issuedFor ∧ t = c) := by
  constructor
  · rintro ⟨i, h1, h2⟩
    rcases i with _ | _ | _ | i
    · cases h1; cases h2; exact .inl ⟨rfl, rfl⟩
    · cases h1; cases h2; exact .inr (.inl ⟨rfl, rfl⟩)
    · cases h1; cases h2; exact .inr (.inr ⟨rfl, rfl⟩)
    · simp at h2
  · rintro (⟨rfl, rfl⟩ | ⟨rfl, rfl⟩ | ⟨rfl, rfl⟩)
    · exact ⟨0, rfl, rfl⟩
    · exact ⟨1, rfl, rfl⟩
    · exact ⟨2, rfl, rfl⟩

theorem Spec.noRevisit_pair {a b : Trust} (h : a.issuedFor ≠ b.issuedFor) : Spec.NoRevisit [a, b] := by
  intro i j x y hij hi hj e
  rcases i with _ | _ | i <;> rcases j with _ | _ | j <;> first | omega | skip
  · cases hi; cases hj; exact absurd e h
  all_goals simp at hj

theorem Spec.noRevisit_triple {a b c : Trust} (h1 : a.issuedFor ≠ b.issuedFor) (h2 : a.issuedFor ≠ c.issuedFor) :
    Spec.NoRevisit [a, b, c] := by
  intro i j x y hij hi hj e
  rcases i with _ | _ | _ | i <;> rcases j with _ | _ | _ | j <;> first | omega | skip
  · cases hi; cases hj; exact absurd e h1
  · cases hi; cases hj; exact absurd e h2
  · simp at hj
  all_goals simp at hj

variable {root label ex : PublicKey} {peers : List PublicKey} {e : UInt64} {rt lt : PublicKey → Trust}

theorem Spec.Network.root_ne_label (h : Spec.Network root label ex peers) : root ≠ label := by
  intro h'
  have : Aqua.fluenceRootPeerId = Aqua.labelPeerId := by rw [← h.rootId, ← h.labelId, h']
  exact absurd this (by decide)

theorem Spec.bootEdge_iff (hR : ∀ k, (rt k).issuedFor = k) {k : PublicKey} {t : Trust} :
    (∃ c ∈ Spec.startCerts root label ex peers rt lt, Spec.Edge c.chain k t) ↔ Spec.BootEdge root label ex peers rt lt k t := by
  unfold Spec.startCerts Spec.BootEdge
  constructor
  · rintro ⟨c, hc, he⟩
    rcases List.mem_cons.mp hc with rfl | hc
    · rcases Spec.edge_pair.mp he with ⟨rfl, rfl⟩ | ⟨rfl, rfl⟩
      · exact .inl ⟨hR _, rfl⟩
      · exact .inr (.inl ⟨hR _, rfl⟩)
    · obtain ⟨p, hp, rfl⟩ := List.mem_map.mp hc
      rcases Spec.edge_triple.mp he with ⟨rfl, rfl⟩ | ⟨rfl, rfl⟩ | ⟨rfl, rfl⟩
      · exact .inl ⟨hR _, rfl⟩
      · exact .inr (.inr (.inl ⟨hR _, List.ne_nil_of_mem hp, rfl⟩))
      · exact .inr (.inr (.inr ⟨hR _, p, hp, rfl⟩))
  · rintro (⟨rfl, rfl⟩ | ⟨rfl, rfl⟩ | ⟨rfl, hp, rfl⟩ | ⟨rfl, p, hp, rfl⟩)
    · exact ⟨_, .head _, Spec.edge_pair.mpr (.inl ⟨(hR _).symm, rfl⟩)⟩
    · exact ⟨_, .head _, Spec.edge_pair.mpr (.inr ⟨(hR _).symm, rfl⟩)⟩
    · obtain ⟨p, hp⟩ := List.exists_mem_of_ne_nil _ hp
      exact ⟨_, .tail _ (List.mem_map.mpr ⟨p, hp, rfl⟩), Spec.edge_triple.mpr (.inr (.inl ⟨(hR _).symm, rfl⟩))⟩
    · exact ⟨_, .tail _ (List.mem_map.mpr ⟨p, hp, rfl⟩), Spec.edge_triple.mpr (.inr (.inr ⟨(hR _).symm, rfl⟩))⟩

/-- The trust graph after the start. -/
structure Spec.Booted (root label ex : PublicKey) (peers : List PublicKey) (rt lt : PublicKey → Trust) (g : Spec.Snapshot) (live : Prop) : Prop where
  trusted : ∀ k t, g.trusted k t ↔ Spec.BootEdge root label ex peers rt lt k t ∧ live
  revoked : ∀ k k', ¬ g.revoked k k'
  root : ∀ k, g.root k ↔ k = root

/-- The certificates of every key after the start. -/
theorem Spec.Booted.admissible {g : Spec.Snapshot} {live : Prop} (hb : Spec.Booted root label ex peers rt lt g live)
    (h : Spec.Network root label ex peers) (hR : ∀ k, (rt k).issuedFor = k) (hL : ∀ k, (lt k).issuedFor = k) (pk : PublicKey) (c : Certificate) :
    Spec.Admissible g pk c ↔ live ∧
      ((pk = ex ∧ c = ⟨[rt root, rt ex]⟩) ∨
       (peers ≠ [] ∧ pk = label ∧ c = ⟨[rt root, rt label]⟩) ∨
       (pk ∈ peers ∧ c = ⟨[rt root, rt label, lt pk]⟩)) := by
  have hrl := h.root_ne_label
  constructor
  · rintro ⟨⟨hlong, hroot, hlink, htarget⟩, hnr, -⟩
    obtain ⟨ts⟩ := c
    dsimp only at *
    rcases ts with _ | ⟨t0, _ | ⟨t1, rest⟩⟩
    · simp at hlong
    · simp at hlong
    obtain ⟨hr0, hs0⟩ := hroot t0 rfl
    rw [hb.root] at hr0
    obtain ⟨he0, hlive⟩ := (hb.trusted _ _).mp hs0
    have e0 : t0 = rt root := by
      rcases he0 with ⟨-, rfl⟩ | ⟨-, rfl⟩ | ⟨-, -, rfl⟩ | ⟨h', -⟩
      · rfl
      · exact absurd ((hR _).symm.trans hr0) h.exRoot
      · exact absurd (hr0.symm.trans (hR _)) hrl
      · exact absurd (hr0.symm.trans h') hrl
    subst e0
    have he1 := ((hb.trusted _ _).mp (hlink 0 _ t1 rfl rfl)).1
    refine ⟨hlive, ?_⟩
    have hne : (rt root).issuedFor ≠ t1.issuedFor := fun h' => by
      have := (hnr 0 1 _ t1 (by omega) rfl rfl h').1
      omega
    rcases he1 with ⟨-, rfl⟩ | ⟨-, rfl⟩ | ⟨-, hp, rfl⟩ | ⟨h', -⟩
    · exact absurd rfl hne
    · rcases rest with _ | ⟨t2, rest⟩
      · exact .inl ⟨(htarget _ rfl).symm.trans (hR _), rfl⟩
      · rcases ((hb.trusted _ _).mp (hlink 1 _ t2 rfl rfl)).1 with ⟨h', -⟩ | ⟨h', -⟩ | ⟨h', -⟩ | ⟨h', -⟩
        · exact absurd ((hR _).symm.trans h') h.exRoot
        · exact absurd ((hR _).symm.trans h') h.exRoot
        · exact absurd ((hR _).symm.trans h') h.exRoot
        · exact absurd ((hR _).symm.trans h') h.exLabel
    · rcases rest with _ | ⟨t2, rest⟩
      · exact .inr (.inl ⟨hp, (htarget _ rfl).symm.trans (hR _), rfl⟩)
      · rcases ((hb.trusted _ _).mp (hlink 1 _ t2 rfl rfl)).1 with ⟨h', -⟩ | ⟨h', -⟩ | ⟨h', -⟩ | ⟨-, p, hm, rfl⟩
        · exact absurd (h'.symm.trans (hR _)) hrl
        · exact absurd (h'.symm.trans (hR _)) hrl
        · exact absurd (h'.symm.trans (hR _)) hrl
        · rcases rest with _ | ⟨t3, rest⟩
          · obtain rfl : p = pk := (hL _).symm.trans (htarget _ rfl)
            exact .inr (.inr ⟨hm, rfl⟩)
          · rcases ((hb.trusted _ _).mp (hlink 2 _ t3 rfl rfl)).1 with ⟨h', -⟩ | ⟨h', -⟩ | ⟨h', -⟩ | ⟨h', -⟩
            · exact absurd ((hL p).symm.trans h') (fun h' => h.peersRoot (h' ▸ hm))
            · exact absurd ((hL p).symm.trans h') (fun h' => h.peersRoot (h' ▸ hm))
            · exact absurd ((hL p).symm.trans h') (fun h' => h.peersRoot (h' ▸ hm))
            · exact absurd ((hL p).symm.trans h') (fun h' => h.peersLabel (h' ▸ hm))
    · exact absurd ((hR _).symm.trans h') hrl
  · rintro ⟨hl, hc⟩
    have hrr : g.root (rt root).issuedFor ∧ g.trusted (rt root).issuedFor (rt root) :=
      ⟨(hb.root _).mpr (hR _), (hb.trusted _ _).mpr ⟨.inl ⟨hR _, rfl⟩, hl⟩⟩
    rcases hc with ⟨rfl, rfl⟩ | ⟨hp, rfl, rfl⟩ | ⟨hm, rfl⟩
    · refine ⟨⟨Nat.le_refl 2, ?_, ?_, ?_⟩, Spec.noRevisit_pair fun h' => h.exRoot (by rw [hR, hR] at h'; exact h'.symm), fun _ _ _ _ _ _ _ _ => hb.revoked _ _⟩
      · intro t ht; cases ht; exact hrr
      · intro j a b ha hb'
        rcases j with _ | j
        · cases ha; cases hb'; exact (hb.trusted _ _).mpr ⟨.inr (.inl ⟨hR _, rfl⟩), hl⟩
        · simp at hb'
      · intro t ht; cases ht; exact hR _
    · refine ⟨⟨Nat.le_refl 2, ?_, ?_, ?_⟩, Spec.noRevisit_pair (by rw [hR, hR]; exact hrl), fun _ _ _ _ _ _ _ _ => hb.revoked _ _⟩
      · intro t ht; cases ht; exact hrr
      · intro j a b ha hb'
        rcases j with _ | j
        · cases ha; cases hb'; exact (hb.trusted _ _).mpr ⟨.inr (.inr (.inl ⟨hR _, hp, rfl⟩)), hl⟩
        · simp at hb'
      · intro t ht; cases ht; exact hR _
    · refine ⟨⟨Nat.le_succ 2, ?_, ?_, ?_⟩, Spec.noRevisit_triple (by rw [hR, hR]; exact hrl) (fun h' => h.peersRoot (by rw [hR, hL] at h'; exact h' ▸ hm)),
        fun _ _ _ _ _ _ _ _ => hb.revoked _ _⟩
      · intro t ht; cases ht; exact hrr
      · intro j a b ha hb'
        rcases j with _ | _ | j
        · cases ha; cases hb'
          exact (hb.trusted _ _).mpr ⟨.inr (.inr (.inl ⟨hR _, List.ne_nil_of_mem hm, rfl⟩)), hl⟩
        · cases ha; cases hb'
          exact (hb.trusted _ _).mpr ⟨.inr (.inr (.inr ⟨hR _, _, hm, rfl⟩)), hl⟩
        · simp at hb'
      · intro t ht; cases ht; exact hL _

end TG
