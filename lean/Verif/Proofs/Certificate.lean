/-
Helper lemmas about certificate.rs.
-/
import Verif.Model.Certificate

namespace TG

theorem forE_ok_iff {ε α : Type} (f : α → Outcome ε Unit) (l : List α) :
    forE f l = .ok () ↔ ∀ a ∈ l, f a = .ok () := by
  induction l with
  | nil => simp [forE]
  | cons a l ih =>
    rw [forE, Outcome.bind_eq_ok]
    constructor
    · rintro ⟨⟨⟩, h1, h2⟩ b hb
      rcases List.mem_cons.mp hb with rfl | hb
      · exact h1
      · exact ih.mp h2 b hb
    · intro h
      exact ⟨(), h a (by simp), ih.mpr fun b hb => h b (List.mem_cons_of_mem _ hb)⟩

variable [Env]

theorem Trust.verify_iff {t : Trust} {by' : PublicKey} {now : Dur} :
    t.verify by' now = .ok () ↔
      now.total ≤ t.expiresAt.total ∧
        by'.verify (Trust.signatureBytes t.issuedFor t.expiresAt t.issuedAt) t.signature = .ok () := by
  unfold Trust.verify KeyPair.verify
  rw [← Nat.not_lt, ← Dur.lt_iff]
  split
  · simp_all
  · rename_i h
    simp only [Bool.not_eq_true] at h
    rw [Outcome.mapErr_eq_ok, h]
    simp

namespace Certificate

theorem verify_iff {c : Certificate} {roots : List PublicKey} {now : Dur} :
    c.verify roots now = .ok () ↔
      c.chain ≠ [] ∧
      (∀ t, c.chain[0]? = some t → t.verify t.issuedFor now = .ok () ∧ t.issuedFor ∈ roots) ∧
      ∀ (i : Nat) a b, c.chain[i]? = some a → c.chain[i + 1]? = some b → b.verify a.issuedFor now = .ok () := by
  obtain ⟨chain⟩ := c
  rcases chain with _ | ⟨root, rest⟩
  · simp [verify]
  · unfold verify
    dsimp only
    rw [Outcome.bind_eq_ok]
    simp only [Outcome.mapErr_eq_ok]
    constructor
    · rintro ⟨⟨⟩, h1, h2⟩
      split at h2
      · rename_i hroot
        refine ⟨by simp, ?_, ?_⟩
        · intro t ht
          cases ht
          exact ⟨h1, by simpa using hroot⟩
        · intro i a b ha hb
          have hi : i + 1 < (root :: rest).length := (List.getElem?_eq_some_iff.mp hb).1
          have := (forE_ok_iff _ _).mp h2 (i + 1) (by
            rw [List.mem_reverse, List.mem_range'_1]
            simp only [List.length_cons] at hi ⊢
            omega)
          unfold verifyStep at this
          rw [hb, Nat.add_sub_cancel, ha] at this
          exact Outcome.mapErr_eq_ok.mp this
      · cases h2
    · rintro ⟨-, h1, h2⟩
      obtain ⟨hv, hr⟩ := h1 root rfl
      refine ⟨(), hv, ?_⟩
      rw [if_pos (by simpa using hr), forE_ok_iff]
      intro j hj
      rw [List.mem_reverse, List.mem_range'_1] at hj
      obtain ⟨i, rfl⟩ : ∃ i, j = i + 1 := ⟨j - 1, by omega⟩
      have hi : i + 1 < (root :: rest).length := by
        simp only [List.length_cons] at hj ⊢
        omega
      unfold verifyStep
      rw [Nat.add_sub_cancel, List.getElem?_eq_getElem hi, List.getElem?_eq_getElem (by omega)]
      dsimp only
      rw [Outcome.mapErr_eq_ok]
      exact h2 i _ _ (List.getElem?_eq_getElem (by omega)) (List.getElem?_eq_getElem hi)

end Certificate
end TG
