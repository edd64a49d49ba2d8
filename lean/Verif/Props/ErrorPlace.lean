/-
C106: errors name the trust that is wrong.
-/
import Verif.Props.Certificates
import Verif.Props.Panics
import Verif.Model.ErrorText

namespace TG

section
variable [Env]

omit [Env] in
theorem forE_err {ε α : Type} {f : α → Outcome ε Unit} {l : List α} {e : ε} (h : forE f l = .err e) :
    ∃ pre a post, l = pre ++ a :: post ∧ (∀ x ∈ pre, f x = .ok ()) ∧ f a = .err e := by
  induction l with
  | nil => cases h
  | cons a l ih =>
    rw [forE] at h
    cases hf : f a with
    | ok u =>
      rw [hf, Outcome.ok_bind] at h
      obtain ⟨pre, b, post, rfl, h1, h2⟩ := ih h
      refine ⟨a :: pre, b, post, rfl, fun x hx => ?_, h2⟩
      rcases List.mem_cons.mp hx with rfl | hx
      · exact hf
      · exact h1 x hx
    | err e' =>
      rw [hf] at h
      cases h
      exact ⟨[], a, l, rfl, by simp, hf⟩
    | panic => rw [hf] at h; cases h
    | diverge => rw [hf] at h; cases h

namespace Spec

/-- The error that describes what is wrong with a certificate: it has no trust; or the root trust does not verify; or the root is not trusted; or a trust does not
verify under the key before, the last one of this kind, with its place. -/
def Blames (c : Certificate) (roots : List PublicKey) (now : Dur) (err : CertificateError) : Prop :=
  (c.chain = [] ∧ err = .certificateLengthError) ∨
  ∃ root, c.chain[0]? = some root ∧
    ((∃ e, root.verify root.issuedFor now = .err e ∧ err = .malformedRoot e) ∨
      root.verify root.issuedFor now = .ok () ∧
        ((root.issuedFor ∉ roots ∧ err = .noTrustedRoot) ∨
          root.issuedFor ∈ roots ∧ ∃ (i : Nat) (a b : Trust) (e : TrustError), c.chain[i]? = some a ∧ c.chain[i + 1]? = some b ∧
            b.verify a.issuedFor now = .err e ∧ err = .verificationError (i + 1) e ∧
            ∀ (j : Nat) x y, i < j → c.chain[j]? = some x → c.chain[j + 1]? = some y → y.verify x.issuedFor now = .ok ()))

end Spec

theorem Spec.Blames.unique {c : Certificate} {roots : List PublicKey} {now : Dur} {e e' : CertificateError} (h : Spec.Blames c roots now e)
    (h' : Spec.Blames c roots now e') : e = e' := by
  rcases h with ⟨h1, h2⟩ | ⟨r, h1, h2⟩ <;> rcases h' with ⟨h3, h4⟩ | ⟨r', h3, h4⟩
  · rw [h2, h4]
  · rw [h1] at h3; cases h3
  · rw [h3] at h1; cases h1
  · rw [h1] at h3
    cases h3
    rcases h2 with ⟨x, h5, h6⟩ | ⟨h5, h6⟩ <;> rcases h4 with ⟨y, h7, h8⟩ | ⟨h7, h8⟩
    · rw [h5] at h7; cases h7; rw [h6, h8]
    · rw [h5] at h7; cases h7
    · rw [h5] at h7; cases h7
    · rcases h6 with ⟨h9, h10⟩ | ⟨h9, i, a, b, x, p1, p2, p3, p4, p5⟩ <;> rcases h8 with ⟨h11, h12⟩ | ⟨h11, i', a', b', x', q1, q2, q3, q4, q5⟩
      · rw [h10, h12]
      · exact absurd h11 h9
      · exact absurd h9 h11
      · rcases Nat.lt_trichotomy i i' with h | rfl | h
        · rw [p5 i' a' b' h q1 q2] at q3; cases q3
        · rw [p1] at q1; cases q1
          rw [p2] at q2; cases q2
          rw [p3] at q3; cases q3
          rw [p4, q4]
        · rw [q5 i a b h p1 p2] at p3; cases p3

theorem Certificate.verify_blames {c : Certificate} {roots : List PublicKey} {now : Dur} {err : CertificateError} (h : c.verify roots now = .err err) :
    Spec.Blames c roots now err := by
  obtain ⟨chain⟩ := c
  rcases chain with _ | ⟨root, rest⟩
  · cases h; exact .inl ⟨rfl, rfl⟩
  unfold Certificate.verify at h
  dsimp only at h
  refine .inr ⟨root, rfl, ?_⟩
  rcases C38_verify_total root root.issuedFor now with hv | ⟨e, hv⟩
  · rw [hv, Outcome.mapErr_ok, Outcome.ok_bind] at h
    refine .inr ⟨hv, ?_⟩
    split at h
    · rename_i hr
      refine .inr ⟨by simpa using hr, ?_⟩
      obtain ⟨pre, i, post, h1, h2, h3⟩ := forE_err h
      have hrange : ∀ k, k ∈ pre ++ i :: post ↔ 1 ≤ k ∧ k < 1 + ((root :: rest).length - 1) := by
        intro k
        rw [← h1, List.mem_reverse, List.mem_range'_1]
      have hi := (hrange i).mp (by simp)
      simp only [List.length_cons] at hi
      have hil : i < (root :: rest).length := by simp only [List.length_cons]; omega
      have hil' : i - 1 < (root :: rest).length := by omega
      have hsorted : (pre ++ i :: post).Pairwise (· > ·) := by
        rw [← h1, List.pairwise_reverse]
        exact List.pairwise_lt_range'
      unfold Certificate.verifyStep at h3
      rw [List.getElem?_eq_getElem hil, List.getElem?_eq_getElem hil'] at h3
      simp only at h3
      rcases C38_verify_total (root :: rest)[i] ((root :: rest)[i - 1]).issuedFor now with q | ⟨e, q⟩
      · rw [q] at h3; cases h3
      · rw [q] at h3
        cases h3
        refine ⟨i - 1, _, _, e, List.getElem?_eq_getElem hil', ?_, q, ?_, ?_⟩
        · rw [show i - 1 + 1 = i by omega]
          exact List.getElem?_eq_getElem _
        · rw [show i - 1 + 1 = i by omega]
        · intro j x y hj hx hy
          have hjl : j + 1 < (root :: rest).length := by
            by_contra hc
            rw [List.getElem?_eq_none (by simp only [List.length_cons] at hc ⊢; omega)] at hy
            cases hy
          have hmem : j + 1 ∈ pre := by
            have : j + 1 ∈ pre ++ i :: post := (hrange _).mpr ⟨by omega, by simp only [List.length_cons] at hjl ⊢; omega⟩
            rcases List.mem_append.mp this with h | h
            · exact h
            · exfalso
              rcases List.mem_cons.mp h with h | h
              · omega
              · have := (List.pairwise_cons.mp (List.pairwise_append.mp hsorted).2.1).1 _ h
                omega
          have := h2 _ hmem
          unfold Certificate.verifyStep at this
          rw [hy, show j + 1 - 1 = j by omega, hx] at this
          simp only at this
          rcases C38_verify_total y x.issuedFor now with q | ⟨e, q⟩
          · exact q
          · rw [q] at this; cases this
    · rename_i hr
      cases h
      exact .inl ⟨by simpa using hr, rfl⟩
  · rw [hv] at h
    cases h
    exact .inl ⟨e, hv, rfl⟩

/-- **C106**, `Certificate::verify`: the error says exactly what is wrong: that there is no trust, or why the root trust does not verify, or that the root is not
trusted, or which trust does not verify under the key of the trust before it (the last one, counted from 0), and why. -/
theorem C106_verify (c : Certificate) (roots : List PublicKey) (now : Dur) (err : CertificateError) :
    c.verify roots now = .err err ↔ Spec.Blames c roots now err := by
  refine ⟨Certificate.verify_blames, fun h => ?_⟩
  rcases C51_verify_total c roots now with hok | ⟨e, he⟩
  · exfalso
    obtain ⟨h1, h2, h3⟩ := (C51_verify_decides c roots now).mp hok
    rcases h with ⟨h4, -⟩ | ⟨r, h4, h5⟩
    · exact h1 h4
    · obtain ⟨h6, h7⟩ := h2 r h4
      rcases h5 with ⟨e, h8, -⟩ | ⟨-, ⟨h8, -⟩ | ⟨-, i, a, b, e, p1, p2, p3, -⟩⟩
      · rw [h6] at h8; cases h8
      · exact h8 h7
      · rw [h3 i a b p1 p2] at p3; cases p3
  · rw [he, (Certificate.verify_blames he).unique h]

theorem fromStrLoop_err_iff {i k : Nat} {e : TrustError} {ls : List Str} (hl : ls.length % 4 = 0) :
    Certificate.fromStrLoop i ls = .err (.decodeTrustError k e) ↔
      ∃ pre a b c d post, ls = pre ++ a :: b :: c :: d :: post ∧ TrustLines pre ∧ Trust.convertFromStrings a b c d = .err e ∧ k = i + pre.length := by
  fun_induction Certificate.fromStrLoop i ls with
  | case1 i a b c d rest ih =>
    have ih := ih (by simp only [List.length_cons] at hl; omega)
    cases hc : Trust.convertFromStrings a b c d with
    | err e' =>
      constructor
      · intro h
        cases h
        exact ⟨[], a, b, c, d, rest, rfl, .nil, hc, by simp⟩
      · rintro ⟨pre, a', b', c', d', post, h1, h2, h3, rfl⟩
        cases h2 with
        | nil =>
          cases h1
          rw [hc] at h3
          cases h3
          rfl
        | cons q qs =>
          cases h1
          rw [hc] at q
          cases q
    | ok t =>
      simp only [Outcome.mapErr_ok, Outcome.ok_bind]
      have : (Certificate.fromStrLoop (i + 4) rest >>= fun ts => Outcome.ok (t :: ts)) = .err (.decodeTrustError k e) ↔
          Certificate.fromStrLoop (i + 4) rest = .err (.decodeTrustError k e) := by
        cases Certificate.fromStrLoop (i + 4) rest <;> simp [Bind.bind, Outcome.bind]
      rw [this, ih]
      constructor
      · rintro ⟨pre, a', b', c', d', post, rfl, h2, h3, rfl⟩
        exact ⟨a :: b :: c :: d :: pre, a', b', c', d', post, rfl, .cons hc h2, h3, by simp only [List.length_cons]; omega⟩
      · rintro ⟨pre, a', b', c', d', post, h1, h2, h3, rfl⟩
        cases h2 with
        | nil =>
          cases h1
          rw [hc] at h3
          cases h3
        | cons q qs =>
          cases h1
          exact ⟨_, a', b', c', d', post, rfl, qs, h3, by simp only [List.length_cons]; omega⟩
    | panic =>
      refine ⟨fun h => (by cases h), ?_⟩
      rintro ⟨pre, a', b', c', d', post, h1, h2, h3, -⟩
      cases h2 with
      | nil => cases h1; rw [hc] at h3; cases h3
      | cons q qs => cases h1; rw [hc] at q; cases q
    | diverge =>
      refine ⟨fun h => (by cases h), ?_⟩
      rintro ⟨pre, a', b', c', d', post, h1, h2, h3, -⟩
      cases h2 with
      | nil => cases h1; rw [hc] at h3; cases h3
      | cons q qs => cases h1; rw [hc] at q; cases q
  | case2 =>
    refine ⟨fun h => (by cases h), ?_⟩
    rintro ⟨pre, a, b, c, d, post, h, -⟩
    simp at h
  | case3 ls k h1 h2 =>
    exfalso
    rcases ls with _ | ⟨a, _ | ⟨b, _ | ⟨c, _ | ⟨d, r⟩⟩⟩⟩
    · exact h2 rfl
    · simp at hl
    · simp at hl
    · simp at hl
    · exact h1 a b c d r rfl

/-- **C106**, `Certificate::from_str`: the number in the error is that of the line (counted from 0) with which the first trust begins that cannot be read.  What is
missing: the text calls it the number of the trust (`C106_number_fails`). -/
theorem C106_from_str_partial (s : Str) (k : Nat) (e : TrustError) :
    Certificate.fromStr s = .err (.decodeTrustError k e) ↔
      (lines s).length % 4 = 2 ∧ ∃ f v pre a b c d post, lines s = f :: v :: (pre ++ a :: b :: c :: d :: post) ∧ TrustLines pre ∧
        Trust.convertFromStrings a b c d = .err e ∧ k = 2 + pre.length := by
  unfold Certificate.fromStr
  rcases hl : lines s with _ | ⟨f, _ | ⟨v, rest⟩⟩
  · simp
  · simp
  · simp only [List.length_cons]
    by_cases hm : rest.length % 4 = 0
    · rw [if_neg (by omega)]
      have : (Certificate.fromStrLoop 2 rest >>= fun chain => Outcome.ok (Certificate.newUnverified chain)) = .err (.decodeTrustError k e) ↔
          Certificate.fromStrLoop 2 rest = .err (.decodeTrustError k e) := by
        cases Certificate.fromStrLoop 2 rest <;> simp [Bind.bind, Outcome.bind]
      rw [this, fromStrLoop_err_iff hm]
      constructor
      · rintro ⟨pre, a, b, c, d, post, rfl, h⟩
        exact ⟨by omega, f, v, pre, a, b, c, d, post, rfl, h⟩
      · rintro ⟨-, f', v', pre, a, b, c, d, post, h1, h⟩
        cases h1
        exact ⟨pre, a, b, c, d, post, rfl, h⟩
    · rw [if_pos hm]
      refine ⟨fun h => (by cases h), ?_⟩
      rintro ⟨h, -⟩
      omega

theorem TrustLines.length {ls : List Str} (h : TrustLines ls) : ls.length % 4 = 0 := by
  induction h with
  | nil => rfl
  | cons _ _ ih => simp only [List.length_cons]; omega

/-- **C106 fails** for `Certificate::from_str` (finding F29): "Cannot convert trust number N" never has the number of the trust that cannot be read, neither counted from
0 (the number of lines before, after the first two, divided by 4) nor from 1. -/
theorem C106_number_fails {s : Str} {k : Nat} {e : TrustError} {text : Str} (h : Certificate.fromStr s = .err (.decodeTrustError k e))
    (ht : CertificateError.Says (.decodeTrustError k e) text) :
    (∃ rest, text = "Cannot convert trust number ".toList ++ showIndex k ++ " from string: ".toList ++ rest) ∧
    ∃ n f v pre a b c d post, lines s = f :: v :: (pre ++ a :: b :: c :: d :: post) ∧ TrustLines pre ∧ pre.length = 4 * n ∧
      Trust.convertFromStrings a b c d = .err e ∧ k ≠ n ∧ k ≠ n + 1 := by
  constructor
  · cases ht
    exact ⟨_, rfl⟩
  · obtain ⟨-, f, v, pre, a, b, c, d, post, h1, h2, h3, h4⟩ := (C106_from_str_partial s k e).mp h
    have := h2.length
    exact ⟨pre.length / 4, f, v, pre, a, b, c, d, post, h1, h2, by omega, h3, by omega, by omega⟩

/-- **C106 fails** for `Certificate::decode` (finding F29): what it says of a certificate with one trust is "The certificate must have at least 1 trust". -/
theorem C106_at_least_one_fails (header bytes : Bytes) (h : header.length = 6) {text : Str} :
    Certificate.decode (header ++ 1 :: bytes) = .err .certificateLengthError ∧
      (CertificateError.Says .certificateLengthError text → text = "The certificate must have at least 1 trust".toList) := by
  constructor
  · unfold Certificate.decode
    rw [Certificate.checkArrLen_ok (by simp only [List.length_append, List.length_cons]; omega)]
    have : Certificate.index (header ++ 1 :: bytes) 6 = .ok 1 := by
      unfold Certificate.index
      rw [List.getElem?_append_right (by omega), h]
      rfl
    rw [Outcome.ok_bind]
    simp only [this, Outcome.ok_bind]
    rfl
  · intro h
    cases h
    rfl

end

namespace ErrorPlaceDemo
open TG.Toy
set_option maxRecDepth 100000

/-- C106: the third trust is signed by the wrong key, the last has expired; the last is blamed. -/
example : Certificate.verify ⟨[trust 1 1 100 1, trust 1 2 100 1, trust 9 3 100 1, trust 3 4 20 1]⟩ [pk 1] (s 50) = .err (.verificationError 3 .expired) := by decide +kernel

/-- C106: a certificate text whose second trust has no readable date is said to be wrong in "trust number 6". -/
example : Certificate.fromStr ("a\nb\n".toList ++ (trust 1 2 50 10).toText ++ '\n' :: (trust 1 2 50 10).toText ++ "x\n".toList)
    = .err (.decodeTrustError 6 .parseError) := by decide +kernel

end ErrorPlaceDemo
end TG
