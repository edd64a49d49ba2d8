/-
Property C106: how the number of a trust is shown in the text of an error.
-/
import Verif.Props.CertText
import Verif.Props.ErrorPlace

namespace TG
variable [Env]

omit [Env] in
theorem showIndex_digits {k : Nat} (hk : k < 2 ^ 64) : Spec.DecDigits k (showIndex k) := by
  have h := Numeral_iff.mpr (parseU64_showU64 (UInt64.ofNat k))
  rw [UInt64.toNat_ofNat_of_lt' hk] at h
  rcases h with h | ⟨r, h, -⟩
  · exact h
  · have := showU64_chars (UInt64.ofNat k) '+' (h ▸ List.mem_cons_self ..)
    exact absurd this (by decide)

omit [Env] in
/-- **C106**, the texts: they say the number in decimal digits, and why the trust is wrong. -/
theorem C106_shown {k : Nat} {e : TrustError} {text : Str} (hk : k < 2 ^ 64) :
    (CertificateError.Says (.verificationError k e) text → ∃ num why, Spec.DecDigits k num ∧ e.Says why ∧
      text = "Trust ".toList ++ num ++ " in chain did not pass verification: ".toList ++ why) ∧
    (CertificateError.Says (.decodeTrustError k e) text → ∃ num why, Spec.DecDigits k num ∧ e.Says why ∧
      text = "Cannot convert trust number ".toList ++ num ++ " from string: ".toList ++ why) := by
  refine ⟨fun h => ?_, fun h => ?_⟩
  · cases h with
    | verificationError h => exact ⟨_, _, showIndex_digits hk, h, rfl⟩
  · cases h with
    | decodeTrustError h => exact ⟨_, _, showIndex_digits hk, h, rfl⟩

end TG

/-- C106 applies to a text, and finds 13 in it. -/
example : TG.CertificateError.Says (.verificationError 13 .expired)
      "Trust 13 in chain did not pass verification: Trust is expired at: '5s', current time: '6s'".toList ∧ TG.Spec.DecDigits 13 "13".toList := by
  have h : TG.CertificateError.Says (.verificationError 13 .expired)
      "Trust 13 in chain did not pass verification: Trust is expired at: '5s', current time: '6s'".toList :=
    TG.CertificateError.Says.verificationError (i := 13) (TG.TrustError.Says.expired "5s".toList "6s".toList)
  have := (TG.C106_shown (by decide)).1 h
  exact ⟨h, TG.showIndex_digits (k := 13) (by decide)⟩
