/-
C105: what the error texts tell.
-/
import Verif.Props.Service
import Verif.Proofs.ErrorText

namespace TG
open ErrorText

/-- **C105**: the text of an error tells its reason: no two errors for different reasons have the same text, whatever keys, signatures, key formats, certificates and
library texts are quoted in them. -/
theorem C105_reason {e e' : ServiceError} {s : Str} (h : e.Says s) (h' : e'.Says s) : Spec.reason e = Spec.reason e' := by
  have key : ∀ {e e' : ServiceError} {s : Str}, e.Says s → e'.Says s → (∃ k, e = .dtoError (.invalidKeyFormat k)) → Spec.reason e' = .unreadable := by
    rintro e e' s h h' ⟨k, rfl⟩
    by_contra hr
    refine service_end h' hr ?_
    cases h with
    | dtoError h =>
      cases h with
      | invalidKeyFormat h =>
        cases h with
        | invalidKeyFormat x => exact (List.suffix_append _ _).trans (List.suffix_cons _ _)
  rcases service h with h1 | h1
  · rcases service h' with h2 | h2
    · exact unambiguous h1 h2
    · rw [key h' h h2]
      obtain ⟨k, rfl⟩ := h2
      rfl
  · rw [key h h' h1]
    obtain ⟨k, rfl⟩ := h1
    rfl

theorem Says.ne_nil {e : ServiceError} {s : Str} (h : e.Says s) : s ≠ [] := by
  rcases service h with ⟨p, hp, h1, -⟩ | ⟨k, rfl⟩
  · rintro rfl
    have : ∀ p ∈ sTable, p.1 ≠ [] := by decide +kernel
    exact this p hp (List.prefix_nil.mp h1)
  · rintro rfl
    cases h with
    | dtoError h =>
      cases h with
      | invalidKeyFormat h =>
        generalize hs : ([] : Str) = s at h
        cases h with
        | invalidKeyFormat x =>
          have := congrArg List.length hs
          rw [List.length_append] at this
          have h2 : keyFormatEnd.length = 28 := by decide +kernel
          simp only [List.length_nil] at this
          omega

/-- **C105**: a call of the service has succeeded exactly if the `error` of its result is the empty text. -/
theorem C105_success [Env] (c : Call) (cp : CallParams) (db db' : Db) {ok : Bool} {e : Option ServiceError} {s : Str}
    (h : c.run cp db = (.ok (ok, e), db')) (hs : Shows e s) : ok = true ↔ s = [] := by
  rw [C62_success_iff c cp db db' ok e h]
  cases e with
  | none => exact ⟨fun _ => hs, fun _ => rfl⟩
  | some e => exact ⟨fun h => (by cases h), fun h => absurd h (Says.ne_nil hs)⟩

/-- C105: the texts for a wrong signature key format and for a certificate quoted in the error look alike, but both mean that something could not be read. -/
example : ServiceError.Says (.certError .incorrectCertificateFormat) "Incorrect format of the certificate: x Key format is not supported".toList ∧
    ServiceError.Says (.dtoError (.invalidKeyFormat .invalidKeyFormat)) "Incorrect format of the certificate: x Key format is not supported".toList :=
  ⟨.certError (.incorrectCertificateFormat "x Key format is not supported".toList),
    .dtoError (.invalidKeyFormat (.invalidKeyFormat "Incorrect format of the certificate: x".toList))⟩

/-- C105: an expired trust. -/
example : ServiceError.Says (.tgError (.trustVerificationError .expired)) "Trust verification error: Trust is expired at: '10s', current time: '12s'".toList :=
  .tgError (.trustVerificationError (.expired "10s".toList "12s".toList))

end TG
