/-
C74: exactly which certificate texts make the service trap.
-/
import Verif.Props.Panics
import Verif.Props.ServiceWitness

namespace TG

section
variable [Env]

theorem Trust.convertFromStrings_ne_diverge (a b c d : Str) : Trust.convertFromStrings a b c d ≠ .diverge := by
  have key : ∀ bs : Bytes, PublicKey.decode bs ≠ .diverge := by
    intro bs
    by_cases h : bs = []
    · rw [(C49_public_key_partial bs).mpr h]; nofun
    · rcases PublicKey.decode_cases h with ⟨_, h⟩ | ⟨_, h⟩ <;> rw [h] <;> nofun
  have sig : ∀ bs : Bytes, Signature.decode bs ≠ .diverge := by
    intro bs
    by_cases h : bs = []
    · rw [(C49_signature_partial bs).mpr h]; nofun
    · rcases Signature.decode_cases h with ⟨_, h⟩ | ⟨_, h⟩ <;> rw [h] <;> nofun
  unfold Trust.convertFromStrings Trust.bs58StrToVec
  cases Base58.decode a with
  | none => nofun
  | some x =>
    simp only [Outcome.ofOption_some, Outcome.ok_bind]
    cases h1 : PublicKey.decode x with
    | diverge => exact absurd h1 (key x)
    | panic => nofun
    | err => nofun
    | ok pk =>
      simp only [Outcome.mapErr_ok, Outcome.ok_bind]
      cases Base58.decode b with
      | none => nofun
      | some y =>
        simp only [Outcome.ofOption_some, Outcome.ok_bind]
        cases h2 : Signature.decode y with
        | diverge => exact absurd h2 (sig y)
        | panic => nofun
        | err => nofun
        | ok sg =>
          simp only [Outcome.mapErr_ok, Outcome.ok_bind]
          unfold Trust.strToDuration
          cases parseU64 c <;> cases parseU64 d <;> nofun

theorem Certificate.fromStr_ne_diverge (s : Str) : Certificate.fromStr s ≠ .diverge := by
  have loop : ∀ i ls, Certificate.fromStrLoop i ls ≠ .diverge := by
    intro i ls
    fun_induction Certificate.fromStrLoop i ls with
    | case1 i a b c d rest ih =>
      cases hc : Trust.convertFromStrings a b c d with
      | diverge => exact absurd hc (Trust.convertFromStrings_ne_diverge a b c d)
      | panic => nofun
      | err => nofun
      | ok t =>
        simp only [Outcome.mapErr_ok, Outcome.ok_bind]
        cases hr : Certificate.fromStrLoop (i + 4) rest with
        | diverge => exact absurd hr ih
        | _ => nofun
    | case2 => nofun
    | case3 => nofun
  unfold Certificate.fromStr
  split
  · split
    · nofun
    · rename_i rest _ _
      cases hr : Certificate.fromStrLoop 2 rest with
      | diverge => exact absurd hr (loop _ _)
      | _ => nofun
  · nofun

/-- **C74** for `insert_cert_raw`, exactly when it holds: the call returns a result record unless the text has fewer than two lines, or begins with two lines and
readable trusts, has whole groups of four lines after the first two, and goes on with an empty line for a key, or an empty line for a signature after a
readable key.  Missing: those texts (`C74_no_trap_fails`). -/
theorem C74_raw_exact_partial (s : Str) (t : UInt64) (cp : CallParams) {db : Db} (hr : Reachable db)
    (hb : ∀ c, Certificate.fromStr s = .ok c → db.Bounded c.chain.length) :
    (Call.insertCertRaw s t).Answers cp db ↔
      ¬ ((lines s).length < 2 ∨
        (lines s).length % 4 = 2 ∧ ∃ f v pre a b c d post, lines s = f :: v :: (pre ++ a :: b :: c :: d :: post) ∧ TrustLines pre ∧
          (a = [] ∨ (∃ pk : PublicKey, a = Base58.encode pk.encode) ∧ b = [])) := by
  have e := C49_text_exact_partial s
  simp only [C49_trust_text_partial] at e
  rw [← e]
  constructor
  · rintro ⟨ok, er, h⟩ hp
    have : (Call.insertCertRaw s t).run cp db = (.panic, db) := by
      show status (Service.insertCertRaw cp s t) _ = _
      unfold Service.insertCertRaw
      rw [hp]
      rfl
    rw [this] at h
    cases h
  · intro hp
    exact C74_raw_partial s t cp hr ⟨hp, Certificate.fromStr_ne_diverge s⟩ hb

end

namespace PanicsDemo
open TG.Toy
set_option maxRecDepth 100000

/-- C74: a text with two lines and nothing else is answered; a third group of lines that starts with an empty one is not. -/
example : (Call.insertCertRaw "a\nb\n".toList 0).Answers (ServiceDemo.ctx []) ⟨[], [], []⟩ ∧
    ¬ (Call.insertCertRaw ("a\nb\n".toList ++ (trust 1 2 50 10).toText ++ "\n\n5\n6\n7\n".toList) 0).Answers (ServiceDemo.ctx []) ⟨[], [], []⟩ := by
  have h : ∀ t, (Call.insertCertRaw t 0).Answers (ServiceDemo.ctx []) ⟨[], [], []⟩ ↔ ¬ Certificate.fromStr t = .panic := by
    intro t
    rw [C74_raw_exact_partial t 0 _ .init fun _ _ => .inl rfl, C49_text_exact_partial]
    simp only [C49_trust_text_partial]
  rw [h, h]
  decide +kernel

end PanicsDemo
end TG
