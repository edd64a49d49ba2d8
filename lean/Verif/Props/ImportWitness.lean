/-
Concrete cases for C82: a certificate that can be imported.
-/
import Verif.Proofs.Bootstrap
import Verif.Props.Demo
import Verif.Props.Import
import Verif.Props.Keys

namespace TG.Demo
open TG.Toy

/-- Root 1 trusts key 6, who trusts key 7.  The root trust is stored, the others are new. -/
def newCert : Certificate := ⟨[trust 1 1 1000 1, trust 1 6 900 2, trust 6 7 900 2]⟩

set_option maxRecDepth 100000 in
theorem newCert_facts :
    db.rootFactor (pk 1) = some 6 ∧
    (trust 1 1 1000 1).verify (pk 1) (s 10) = .ok () ∧ (trust 1 6 900 2).verify (pk 1) (s 10) = .ok () ∧
    (trust 6 7 900 2).verify (pk 6) (s 10) = .ok () ∧
    Sqlite.toRow (.auth ⟨trust 1 1 1000 1, pk 1⟩) ∈ db.relations ∧
    (∀ row ∈ db.relations, row.issuedFor ≠ keyText (pk 6) ∧ row.issuedFor ≠ keyText (pk 7)) ∧
    pk 1 ≠ pk 6 ∧ pk 1 ≠ pk 7 := by decide +kernel

/-- Nothing is stored about a key that no row mentions. -/
theorem not_stored {db : Db} {k : PublicKey} (h : ∀ row ∈ db.relations, row.issuedFor ≠ keyText k) {r : TrustRelation} (hr : db.Stored r) :
    r.issuedFor ≠ k := by
  intro e
  refine h _ hr.2 ?_
  rw [toRow_issuedFor, e]

theorem newCert_live (now : Dur) (h : now.secs < 900) : ∀ t ∈ newCert.chain, Spec.Live t now := by
  have := UInt64.lt_iff_toNat_lt.mp h
  have h900 : (900 : UInt64).toNat = 900 := rfl
  have hm : ∀ t ∈ newCert.chain, t.expiresAt.secs = 1000 ∨ t.expiresAt.secs = 900 := by
    intro t ht
    rcases List.mem_cons.mp ht with rfl | ht
    · exact .inl rfl
    rcases List.mem_cons.mp ht with rfl | ht
    · exact .inr rfl
    rcases List.mem_cons.mp ht with rfl | ht
    · exact .inr rfl
    cases ht
  intro t ht
  rcases hm t ht with e | e
  · refine (Spec.live_iff (by omega) ?_).mpr ?_
    · rw [e]; decide
    · rw [e]; exact Nat.lt_trans this (by decide)
  · refine (Spec.live_iff (by omega) ?_).mpr ?_
    · rw [e]; decide
    · rw [e]; exact this

/-- C82: the certificate is importable. -/
theorem newCert_importable : Spec.Importable db newCert (s 10) := by
  obtain ⟨h1, h2, h3, h4, h5, h6, h7, h8⟩ := newCert_facts
  have n6 := fun {r} => not_stored (db := db) (k := pk 6) (fun row hm => (h6 row hm).1) (r := r)
  have n7 := fun {r} => not_stored (db := db) (k := pk 7) (fun row hm => (h6 row hm).2) (r := r)
  refine ⟨Nat.le_succ 2, ?_, ?_, ?_, ?_, Spec.noRevisit_triple h7 h8, ?_, ?_⟩
  · intro t ht
    cases ht
    exact ⟨6, h1, by decide⟩
  · intro k t he
    rcases Spec.edge_triple.mp he with ⟨rfl, rfl⟩ | ⟨rfl, rfl⟩ | ⟨rfl, rfl⟩
    · exact h2
    · exact h3
    · exact h4
  · exact newCert_live (s 10) (by decide)
  · intro t ht
    rcases List.mem_cons.mp ht with rfl | ht
    · exact ⟨rfl, rfl⟩
    rcases List.mem_cons.mp ht with rfl | ht
    · exact ⟨rfl, rfl⟩
    rcases List.mem_cons.mp ht with rfl | ht
    · exact ⟨rfl, rfl⟩
    cases ht
  · rintro i j a b hij ha hb ⟨r, hr, -, hp⟩
    have hj := (List.getElem?_eq_some_iff.mp hb).1
    obtain rfl : j = 2 := by
      have : j < 3 := hj
      omega
    cases hb
    exact n7 hr hp
  · intro k t he r hr hp
    rcases Spec.edge_triple.mp he with ⟨rfl, rfl⟩ | ⟨rfl, rfl⟩ | ⟨rfl, rfl⟩
    · exact .inl (reachable.healthy.stored_unique hr ⟨⟨rfl, rfl⟩, h5⟩ hp.1 hp.2)
    · exact absurd hp.1 (n6 hr)
    · exact absurd hp.1 (n7 hr)

/-- C82: a bundle of two certificates, the second for key 6 alone. -/
theorem bundle : Spec.Bundle db [(newCert, s 10), (⟨[trust 1 1 1000 1, trust 1 6 900 2]⟩, s 11)] := by
  have h11 : Spec.Importable db newCert (s 11) := by
    have h := newCert_importable
    refine ⟨h.long, h.root, ?_, newCert_live (s 11) (by decide), h.whole, h.noRevisit, h.unrevoked, h.fresh⟩
    intro k t he
    have hv := h.valid k t he
    rw [C38_verify_decides] at hv ⊢
    refine ⟨?_, hv.2⟩
    rcases Spec.edge_triple.mp he with ⟨-, rfl⟩ | ⟨-, rfl⟩ | ⟨-, rfl⟩ <;> decide
  have hsub : ∀ k t, Spec.Edge [trust 1 1 1000 1, trust 1 6 900 2] k t → Spec.Edge newCert.chain k t := by
    intro k t he
    rcases Spec.edge_pair.mp he with h | h
    · exact Spec.edge_triple.mpr (.inl h)
    · exact Spec.edge_triple.mpr (.inr (.inl h))
  have hmem : ∀ t ∈ [trust 1 1 1000 1, trust 1 6 900 2], t ∈ newCert.chain := by
    intro t ht
    rcases List.mem_cons.mp ht with rfl | ht
    · exact .head _
    rcases List.mem_cons.mp ht with rfl | ht
    · exact .tail _ (.head _)
    cases ht
  have hshort : ∀ now, Spec.Importable db newCert now → Spec.Importable db ⟨[trust 1 1 1000 1, trust 1 6 900 2]⟩ now := by
    intro now h
    refine ⟨Nat.le_refl 2, fun t ht => ?_, fun k t he => h.valid k t (hsub k t he), fun t ht => h.live t (hmem t ht),
      fun t ht => h.whole t (hmem t ht), Spec.noRevisit_pair newCert_facts.2.2.2.2.2.2.1, ?_, fun k t he => h.fresh k t (hsub k t he)⟩
    · cases ht
      exact ⟨6, newCert_facts.1, by decide⟩
    · intro i j a b hij ha hb
      have hj : j < 2 := (List.getElem?_eq_some_iff.mp hb).1
      omega
  have hagree : Spec.Agree newCert newCert := by
    intro k t t' he he' hf
    obtain ⟨i, hi, hti⟩ := he
    obtain ⟨j, hj, htj⟩ := he'
    obtain rfl := Spec.edge_index_unique newCert_importable.noRevisit hi hti hj htj rfl hf
    rw [hti] at htj
    exact Option.some.inj htj
  constructor
  · intro p hp q hq
    simp only [List.mem_cons, List.not_mem_nil, or_false] at hp hq
    rcases hp with rfl | rfl <;> rcases hq with rfl | rfl
    · exact newCert_importable
    · exact h11
    · exact hshort _ newCert_importable
    · exact hshort _ h11
  · intro p hp q hq
    simp only [List.mem_cons, List.not_mem_nil, or_false] at hp hq
    rcases hp with rfl | rfl <;> rcases hq with rfl | rfl
    · exact hagree
    · exact fun k t t' h1 h2 => hagree k t t' h1 (hsub _ _ h2)
    · exact fun k t t' h1 h2 => hagree k t t' (hsub _ _ h1) h2
    · exact fun k t t' h1 h2 => hagree k t t' (hsub _ _ h1) (hsub _ _ h2)

/-- C82: the other hypotheses. -/
example : Reachable db ∧ db.NoFaults ∧ db.relations.length + 5 + 16 < 2 ^ 32 := ⟨reachable, tables.2.2, by rw [tables.1]; decide⟩

end TG.Demo
