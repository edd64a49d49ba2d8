/-
C145: which texts are certificates.
-/
import Verif.Props.Formats
import Verif.Spec.CertText

namespace TG

/-! ### Lines -/

theorem stripCr_cr (l : Str) : stripCr ('\r' :: l.reverse) = l := by
  simp [stripCr]

theorem stripCr_plain {l : Str} (h : ¬ ['\r'] <:+ l) : stripCr l.reverse = l := by
  cases hl : l.reverse with
  | nil => simpa [stripCr] using hl
  | cons c r =>
    have e : l = r.reverse ++ [c] := by rw [← List.reverse_reverse l, hl, List.reverse_cons]
    unfold stripCr
    split
    · next heq => cases heq; exact absurd ⟨r.reverse, e.symm⟩ h
    · rw [e, List.reverse_cons]

theorem linesAux_last {acc l : Str} (h : '\n' ∉ l) : linesAux acc l = if l.reverse ++ acc = [] then [] else [(l.reverse ++ acc).reverse] := by
  induction l generalizing acc with
  | nil => rw [linesAux]; by_cases h : acc = [] <;> simp [h]
  | cons c l ih =>
    have hc : c ≠ '\n' := fun e => h (by simp [e])
    rw [linesAux, ih (fun e => h (by simp [e]))]
    · simp
    · intro e; exact hc e

theorem lines_of_Lines {ls : List Str} {s : Str} (h : Spec.Lines ls s) : lines s = ls := by
  induction h with
  | nil => rfl
  | lf h hr _ ih =>
    rw [List.append_assoc, List.singleton_append, lines, linesAux_line _ _ _ h, List.append_nil, stripCr_plain hr, ← lines, ih]
  | @crlf l ls s h _ ih =>
    rw [show l ++ ['\r', '\n'] ++ s = (l ++ ['\r']) ++ '\n' :: s by simp, lines, linesAux_line _ _ _ (by simp [h]), List.append_nil, ← lines, ih,
      List.reverse_append, List.reverse_singleton, List.singleton_append, stripCr_cr]
  | last h h0 =>
    rw [lines, linesAux_last h, if_neg (by simpa using h0)]
    simp

/-- Every text has lines. -/
theorem exists_Lines (s : Str) : ∃ ls, Spec.Lines ls s := by
  induction hn : s.length using Nat.strongRecOn generalizing s with
  | ind n ih =>
    subst hn
    by_cases hs : '\n' ∈ s
    · obtain ⟨l, r, rfl, hl⟩ := List.append_of_mem hs |>.elim fun a ⟨b, e⟩ =>
        (List.eq_append_cons_of_mem hs)
      obtain ⟨ls, h⟩ := ih r.length (by simp; omega) r rfl
      by_cases hr : ['\r'] <:+ l
      · obtain ⟨l', rfl⟩ := hr
        have := Spec.Lines.crlf (l := l') (fun e => hl (by simp [e])) h
        exact ⟨_, by simpa using this⟩
      · have := Spec.Lines.lf hl hr h
        exact ⟨_, by simpa using this⟩
    · by_cases h0 : s = []
      · subst h0; exact ⟨_, .nil⟩
      · exact ⟨_, .last hs h0⟩

theorem Lines_iff {ls : List Str} {s : Str} : Spec.Lines ls s ↔ lines s = ls := by
  refine ⟨lines_of_Lines, fun h => ?_⟩
  obtain ⟨ls', h'⟩ := exists_Lines s
  rw [lines_of_Lines h'] at h
  exact h ▸ h'

/-! ### Numbers -/

theorem decDigit_iff {c : Char} {d : Nat} : decDigit c = some d ↔ d < 10 ∧ c.toNat = 48 + d := by
  unfold decDigit
  have h0 : '0' ≤ c ↔ 48 ≤ c.toNat := Iff.rfl
  have h9 : c ≤ '9' ↔ c.toNat ≤ 57 := Iff.rfl
  split
  · next h => rw [h0, h9] at h; simp only [Option.some.injEq]; omega
  · next h => rw [h0, h9] at h; simp only [reduceCtorEq, false_iff]; omega

theorem DecDigits_iff {n : Nat} {s : Str} : Spec.DecDigits n s ↔ s ≠ [] ∧ ∃ ds, s.mapM decDigit = some ds ∧ Base58.ofDigits 10 ds = n := by
  constructor
  · intro h
    induction h with
    | @one c d hd hc =>
      refine ⟨by simp, [d], ?_, ?_⟩
      · rw [List.mapM_cons, decDigit_iff.mpr ⟨hd, hc⟩]; rfl
      · simp [Base58.ofDigits]
    | @more n d s c _ hd hc ih =>
      obtain ⟨-, ds, h1, h2⟩ := ih
      refine ⟨by simp, ds ++ [d], ?_, ?_⟩
      · rw [List.mapM_append, h1, List.mapM_cons, decDigit_iff.mpr ⟨hd, hc⟩]; rfl
      · rw [Base58.ofDigits_append_singleton, h2, Nat.mul_comm]
  · rintro ⟨h0, ds, h1, rfl⟩
    induction s using List.reverseRecOn generalizing ds with
    | nil => exact absurd rfl h0
    | append_singleton s c ih =>
      rw [List.mapM_append] at h1
      cases hs : s.mapM decDigit with
      | none => rw [hs] at h1; cases h1
      | some es =>
        rw [hs] at h1
        cases hc : decDigit c with
        | none => rw [List.mapM_cons, hc] at h1; cases h1
        | some d =>
          rw [List.mapM_cons, hc] at h1
          cases h1
          obtain ⟨hd, hc⟩ := decDigit_iff.mp hc
          show Spec.DecDigits (Base58.ofDigits 10 (es ++ [d])) _
          rw [Base58.ofDigits_append_singleton, Nat.mul_comm]
          by_cases hs0 : s = []
          · subst hs0
            cases hs
            simpa [Base58.ofDigits] using Spec.DecDigits.one hd hc
          · exact .more (ih hs0 es hs) hd hc

theorem not_DecDigits_plus {n : Nat} {r : Str} : ¬ Spec.DecDigits n ('+' :: r) := by
  intro h
  obtain ⟨-, ds, h, -⟩ := DecDigits_iff.mp h
  rw [List.mapM_cons, show decDigit '+' = none by decide] at h
  cases h

theorem Numeral_iff {x : UInt64} {s : Str} : Spec.Numeral x.toNat s ↔ parseU64 s = some x := by
  have key : ∀ body : Str, Spec.DecDigits x.toNat body ↔ (if body = [] then none
      else match body.mapM decDigit with
        | none => none
        | some ds => if Base58.ofDigits 10 ds < 2 ^ 64 then some (UInt64.ofNat (Base58.ofDigits 10 ds)) else none) = some x := by
    intro body
    rw [DecDigits_iff]
    split
    · next h => simp [h]
    · next h =>
      split
      · next h' => simp [h']
      · next ds h' =>
        rw [h']
        have hx : x.toNat < 2 ^ 64 := x.toNat_lt
        constructor
        · rintro ⟨-, ds', e, e'⟩
          cases e
          rw [e', if_pos hx]; simp
        · intro e
          split at e
          · next hlt =>
            refine ⟨h, ds, rfl, ?_⟩
            rw [← Option.some.inj e]
            simp only [UInt64.toNat_ofNat']
            exact (Nat.mod_eq_of_lt hlt).symm
          · cases e
  unfold Spec.Numeral parseU64
  constructor
  · rintro (h | ⟨r, rfl, h⟩)
    · split
      · next r => exact absurd h not_DecDigits_plus
      · exact (key _).mp h
    · exact (key _).mp h
  · intro h
    dsimp only at h
    split at h
    · exact .inr ⟨_, rfl, (key _).mpr h⟩
    · exact .inl ((key _).mpr h)

section
variable [Env]

/-! ### Trusts -/

omit [Env] in
theorem Trust.strToDuration_iff {s : Str} {d : Dur} : Trust.strToDuration s = .ok d ↔ Spec.Numeral d.secs.toNat s ∧ d.nanos = 0 := by
  rw [Numeral_iff]
  unfold Trust.strToDuration
  cases parseU64 s with
  | none => simp
  | some x =>
    obtain ⟨a, b⟩ := d
    simp only [Outcome.ok.injEq, Dur.ofSecs, Dur.mk.injEq, Option.some.injEq]
    exact ⟨fun ⟨h, h'⟩ => ⟨h, h'.symm⟩, fun ⟨h, h'⟩ => ⟨h, h'.symm⟩⟩

omit [Env] in
theorem Trust.bs58StrToVec_iff {s : Str} {bs : Bytes} : Trust.bs58StrToVec s = .ok bs ↔ s = Base58.encode bs := by
  unfold Trust.bs58StrToVec
  constructor
  · intro hs
    cases hd : Base58.decode s with
    | none => rw [hd] at hs; cases hs
    | some bs' => rw [hd] at hs; cases hs; exact (Base58.encode_decode hd).symm
  · rintro rfl
    rw [Base58.decode_encode]; rfl

theorem Trust.convertFromStrings_iff {a b e i : Str} {t : Trust} : Trust.convertFromStrings a b e i = .ok t ↔
    a = Base58.encode t.issuedFor.encode ∧ b = Base58.encode t.signature.encode ∧ Spec.Numeral t.expiresAt.secs.toNat e ∧ Spec.Numeral t.issuedAt.secs.toNat i ∧
      t.expiresAt.nanos = 0 ∧ t.issuedAt.nanos = 0 := by
  constructor
  · intro h
    unfold Trust.convertFromStrings at h
    cases ha : Trust.bs58StrToVec a with
    | ok x => ?_
    | err _ | panic | diverge => rw [ha] at h; cases h
    rw [ha, Outcome.ok_bind] at h
    cases hp : PublicKey.decode x with
    | ok pk => ?_
    | err _ | panic | diverge => rw [hp] at h; cases h
    rw [hp, Outcome.mapErr_ok, Outcome.ok_bind] at h
    cases hb : Trust.bs58StrToVec b with
    | ok y => ?_
    | err _ | panic | diverge => rw [hb] at h; cases h
    rw [hb, Outcome.ok_bind] at h
    cases hg : Signature.decode y with
    | ok sg => ?_
    | err _ | panic | diverge => rw [hg] at h; cases h
    rw [hg, Outcome.mapErr_ok, Outcome.ok_bind] at h
    cases he : Trust.strToDuration e with
    | ok e' => ?_
    | err _ | panic | diverge => rw [he] at h; cases h
    rw [he, Outcome.ok_bind] at h
    cases hi : Trust.strToDuration i with
    | ok i' => ?_
    | err _ | panic | diverge => rw [hi] at h; cases h
    rw [hi, Outcome.ok_bind] at h
    cases h
    cases PublicKey.decode_ok hp
    cases Signature.decode_ok hg
    exact ⟨Trust.bs58StrToVec_iff.mp ha, Trust.bs58StrToVec_iff.mp hb, (Trust.strToDuration_iff.mp he).1, (Trust.strToDuration_iff.mp hi).1,
      (Trust.strToDuration_iff.mp he).2, (Trust.strToDuration_iff.mp hi).2⟩
  · rintro ⟨rfl, rfl, he, hi, h1, h2⟩
    unfold Trust.convertFromStrings
    rw [Trust.bs58StrToVec_iff.mpr rfl, Outcome.ok_bind, PublicKey.decode_encode, Outcome.mapErr_ok, Outcome.ok_bind, Trust.bs58StrToVec_iff.mpr rfl,
      Outcome.ok_bind, Signature.decode_encode, Outcome.mapErr_ok, Outcome.ok_bind, Trust.strToDuration_iff.mpr ⟨he, h1⟩, Outcome.ok_bind,
      Trust.strToDuration_iff.mpr ⟨hi, h2⟩, Outcome.ok_bind]
    rfl

theorem Certificate.fromStrLoop_iff {i : Nat} {ls : List Str} {ts : List Trust} : Certificate.fromStrLoop i ls = .ok ts ↔ Spec.Says ts ls := by
  constructor
  · intro h
    fun_induction Certificate.fromStrLoop i ls generalizing ts with
    | case1 i a b c d rest ih =>
      cases hc : Trust.convertFromStrings a b c d with
      | ok t => ?_
      | err _ | panic | diverge => rw [hc] at h; cases h
      rw [hc, Outcome.mapErr_ok, Outcome.ok_bind] at h
      cases hr : Certificate.fromStrLoop (i + 4) rest with
      | ok us => ?_
      | err _ | panic | diverge => rw [hr] at h; cases h
      rw [hr, Outcome.ok_bind] at h
      cases h
      obtain ⟨rfl, rfl, he, hi, h1, h2⟩ := Trust.convertFromStrings_iff.mp hc
      exact .cons ⟨h1, h2⟩ he hi (ih hr)
    | case2 => cases h; exact .nil
    | case3 => cases h
  · intro h
    induction h generalizing i with
    | nil => rfl
    | cons hw he hi _ ih =>
      rw [Certificate.fromStrLoop, Trust.convertFromStrings_iff.mpr ⟨rfl, rfl, he, hi, hw.1, hw.2⟩, Outcome.mapErr_ok, Outcome.ok_bind, ih, Outcome.ok_bind]

theorem Spec.Says.length {ts : List Trust} {ls : List Str} (h : Spec.Says ts ls) : ls.length = 4 * ts.length := by
  induction h with
  | nil => rfl
  | cons _ _ _ _ ih => simp only [List.length_cons, ih]; omega

/-! ### Certificates -/

/-- **C145**: the texts that are read as a given certificate: two lines, whatever they say, and then four lines for each trust. -/
theorem C145_texts (s : Str) (c : Certificate) :
    Certificate.fromStr s = .ok c ↔ ∃ format version ls, Spec.Lines (format :: version :: ls) s ∧ Spec.Says c.chain ls := by
  constructor
  · intro h
    unfold Certificate.fromStr at h
    split at h
    · next f v rest hl =>
      split at h
      · cases h
      · cases hr : Certificate.fromStrLoop 2 rest with
        | ok ts => ?_
        | err _ | panic | diverge => rw [hr] at h; cases h
        rw [hr, Outcome.ok_bind] at h
        cases h
        exact ⟨f, v, rest, Lines_iff.mpr hl, Certificate.fromStrLoop_iff.mp hr⟩
    · cases h
  · rintro ⟨f, v, ls, hl, hs⟩
    unfold Certificate.fromStr
    rw [Lines_iff.mp hl]
    dsimp only
    rw [if_neg (by rw [hs.length]; omega), Certificate.fromStrLoop_iff.mpr hs, Outcome.ok_bind]
    rfl

/-- **C145**: so neither other line ends, nor a missing last one, nor other first two lines make a difference. -/
theorem C145_layout {s s' : Str} {f v f' v' : Str} {ls : List Str} (h : Spec.Lines (f :: v :: ls) s) (h' : Spec.Lines (f' :: v' :: ls) s') :
    Certificate.fromStr s = Certificate.fromStr s' := by
  unfold Certificate.fromStr
  rw [Lines_iff.mp h, Lines_iff.mp h']

/-- **C145**: the texts refused for their number of lines. -/
theorem C145_number_of_lines {s : Str} {ls : List Str} (h : Spec.Lines ls s) :
    (Certificate.fromStr s = .err .incorrectCertificateFormat ↔ 2 ≤ ls.length ∧ ls.length % 4 ≠ 2) ∧ (ls.length < 2 → Certificate.fromStr s = .panic) := by
  unfold Certificate.fromStr
  rw [Lines_iff.mp h]
  match ls with
  | [] | [_] => simp
  | _ :: _ :: rest =>
    simp only [List.length_cons]
    refine ⟨?_, by omega⟩
    split
    · simp only [true_iff]; omega
    · next hm =>
      refine iff_of_false (fun e => ?_) (by omega)
      cases hr : Certificate.fromStrLoop 2 rest with
      | err e' =>
        rw [hr] at e
        cases e
        obtain ⟨j, e'', hj⟩ : ∃ j e'', CertificateError.incorrectCertificateFormat = .decodeTrustError j e'' := by
          clear hm h
          generalize 2 = i at hr
          fun_induction Certificate.fromStrLoop i rest with
          | case1 i a b c d rest ih =>
            cases hc : Trust.convertFromStrings a b c d with
            | ok t =>
              rw [hc, Outcome.mapErr_ok, Outcome.ok_bind] at hr
              cases hr' : Certificate.fromStrLoop (i + 4) rest with
              | err e => rw [hr'] at hr; cases hr; exact ih hr'
              | ok _ | panic | diverge => rw [hr'] at hr; cases hr
            | err e => rw [hc] at hr; exact ⟨i, e, by cases hr⟩
            | panic | diverge => rw [hc] at hr; cases hr
          | case2 => cases hr
          | case3 => cases hr
        cases hj
      | ok _ | panic | diverge => rw [hr] at e; cases e

/-- **C145**, lists in serialised form: a list of texts is read as a list of certificates exactly if there are as many and each text is read as the certificate
at its place; otherwise the outcome is that of the first text that is not read as a certificate. -/
theorem C145_lists (ss : List Str) :
    (∀ cs, Certificate.deserializeVec ss = .ok cs ↔ List.Forall₂ (fun s c => Certificate.fromStr s = .ok c) ss cs) ∧
    ∀ pre s post, ss = pre ++ s :: post → (∀ x ∈ pre, ∃ c, Certificate.fromStr x = .ok c) → (∀ c, Certificate.fromStr s ≠ .ok c) →
      (∀ e, Certificate.deserializeVec ss = .err e ↔ Certificate.fromStr s = .err e) ∧
      (Certificate.deserializeVec ss = .panic ↔ Certificate.fromStr s = .panic) := by
  constructor
  · induction ss with
    | nil =>
      intro cs
      cases cs with
      | nil => exact iff_of_true rfl .nil
      | cons _ _ => exact iff_of_false (by intro h; cases h) (by intro h; cases h)
    | cons s ss ih =>
      intro cs
      rw [Certificate.deserializeVec]
      cases hs : Certificate.fromStr s with
      | ok c =>
        rw [Outcome.ok_bind]
        cases hr : Certificate.deserializeVec ss with
        | ok rest =>
          rw [Outcome.ok_bind]
          constructor
          · intro h
            cases h
            exact .cons hs ((ih rest).mp hr)
          · intro h
            cases h with
            | cons h1 h2 =>
              rw [hs] at h1
              cases h1
              rw [(ih _).mpr h2] at hr
              cases hr
              rfl
        | err _ | panic | diverge =>
          refine iff_of_false (by intro h; cases h) ?_
          intro h
          cases h with
          | cons _ h2 => rw [(ih _).mpr h2] at hr; cases hr
      | err _ | panic | diverge =>
        refine iff_of_false (by intro h; cases h) ?_
        intro h
        cases h with
        | cons h1 _ => rw [hs] at h1; cases h1
  · intro pre
    induction pre generalizing ss with
    | nil =>
      rintro s post rfl - hs
      rw [List.nil_append, Certificate.deserializeVec]
      cases h : Certificate.fromStr s with
      | ok c => exact absurd h (hs c)
      | err e =>
        refine ⟨fun e' => ?_, ?_⟩
        · constructor <;> (intro x; cases x; rfl)
        · constructor <;> (intro x; cases x)
      | panic =>
        refine ⟨fun e' => ?_, ?_⟩
        · constructor <;> (intro x; cases x)
        · constructor <;> (intro _; rfl)
      | diverge =>
        refine ⟨fun e' => ?_, ?_⟩
        · constructor <;> (intro x; cases x)
        · constructor <;> (intro x; cases x)
    | cons x pre ih =>
      rintro s post rfl hpre hs
      obtain ⟨c, hc⟩ := hpre x (by simp)
      have h := ih _ s post rfl (fun y hy => hpre y (by simp [hy])) hs
      rw [List.cons_append, Certificate.deserializeVec, hc, Outcome.ok_bind]
      cases hr : Certificate.deserializeVec (pre ++ s :: post) with
      | ok rest =>
        rw [hr] at h
        refine ⟨fun e' => ⟨fun x => (by cases x), fun x => ?_⟩, ⟨fun x => (by cases x), fun x => ?_⟩⟩
        · have := (h.1 e').mpr x; cases this
        · have := h.2.mpr x; cases this
      | err _ | panic | diverge =>
        rw [hr] at h
        refine ⟨fun e' => ⟨fun x => (h.1 e').mp ?_, fun x => ?_⟩, ⟨fun x => h.2.mp ?_, fun x => ?_⟩⟩
        · first | (cases x; rfl) | cases x
        · have := (h.1 e').mpr x
          first | (cases this; rfl) | cases this
        · first | (cases x; rfl) | cases x
        · have := h.2.mpr x
          first | (cases this; rfl) | cases this

end

/-! ### Examples in the toy environment -/

open TG.Toy

/-- C145: a certificate's text with other line ends, no last one, other first lines and a plus sign is read as the same certificate. -/
example : Certificate.fromStr ((Certificate.mk [trust 1 1 50 10]).toText) = .ok ⟨[trust 1 1 50 10]⟩ ∧
    Certificate.fromStr ("x\r\n\n".toList ++ Base58.encode (pk 1).encode ++ "\r\n".toList ++ Base58.encode (trust 1 1 50 10).signature.encode ++ "\n+050\r\n10".toList) =
      .ok ⟨[trust 1 1 50 10]⟩ := by
  decide +kernel

/-- C145, lists: two certificates; and a list whose second text has too few lines. -/
example : Certificate.deserializeVec [(Certificate.mk [trust 1 1 50 10]).toText, "a\nb".toList] = .ok [⟨[trust 1 1 50 10]⟩, ⟨[]⟩] ∧
    Certificate.deserializeVec [(Certificate.mk [trust 1 1 50 10]).toText, "a\nb\nc".toList, "a".toList] = .err .incorrectCertificateFormat := by
  decide +kernel

end TG
