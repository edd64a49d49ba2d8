/-
C49: exactly which encoded certificates and certificate texts make the decoders panic.
-/
import Verif.Props.Formats

namespace TG

section
variable [Env]

namespace Certificate

theorem decodeLoop_panic_iff {arr : Bytes} {n off : Nat} :
    decodeLoop arr n off = .panic ↔
      ∃ (ts : List Trust) (bs : Bytes), ts.length < n ∧ (∀ t ∈ ts, Fits t) ∧ bs.length < 256 ∧ Trust.decode bs = .panic ∧
        ts.flatMap block ++ UInt8.ofNat bs.length :: bs <+: arr.drop off := by
  induction n generalizing off with
  | zero =>
    constructor
    · intro h; cases h
    · rintro ⟨ts, bs, h, -⟩; omega
  | succ n ih =>
    simp only [decodeLoop]
    by_cases h1 : off + 1 ≤ arr.length
    · have hd0 : arr.drop off = arr[off] :: arr.drop (off + 1) := List.drop_eq_getElem_cons (by omega)
      rw [checkArrLen_ok h1]
      have hb : index arr off = .ok arr[off] := by unfold index; rw [List.getElem?_eq_getElem (by omega)]
      simp only [Outcome.ok_bind, hb]
      -- whatever the first block is, it has the length that the byte says
      have len : ∀ {bs : Bytes} {x : Bytes}, bs.length < 256 → UInt8.ofNat bs.length :: bs ++ x <+: arr.drop off →
          bs.length = (arr[off]).toNat ∧ bs = (arr.drop (off + 1)).take (arr[off]).toNat ∧ x <+: arr.drop (off + (1 + (arr[off]).toNat)) := by
        intro bs x hl hp
        rw [hd0, List.cons_append, List.cons_prefix_cons] at hp
        have e : bs.length = (arr[off]).toNat := by
          rw [← hp.1, UInt8.toNat_ofNat']
          omega
        obtain ⟨tail, ht⟩ := hp.2
        rw [List.append_assoc] at ht
        refine ⟨e, ?_, ?_⟩
        · rw [← ht, ← e, List.take_left]
        · rw [← Nat.add_assoc, ← List.drop_drop, ← ht, ← e, List.drop_left]
          exact List.prefix_append _ _
      by_cases h2 : off + 1 + (arr[off]).toNat ≤ arr.length
      · rw [checkArrLen_ok h2]
        have hs : slice arr (off + 1) (off + 1 + (arr[off]).toNat) = .ok ((arr.drop (off + 1)).take (arr[off]).toNat) := by
          unfold slice
          rw [if_pos ⟨by omega, h2⟩, show off + 1 + (arr[off]).toNat - (off + 1) = (arr[off]).toNat by omega]
        simp only [Outcome.ok_bind, hs]
        have hlen : ((arr.drop (off + 1)).take (arr[off]).toNat).length = (arr[off]).toNat := by
          rw [List.length_take, List.length_drop]; omega
        have hlt := (arr[off]).toNat_lt
        have join : ∀ x, x <+: arr.drop (off + (1 + (arr[off]).toNat)) →
            arr[off] :: ((arr.drop (off + 1)).take (arr[off]).toNat ++ x) <+: arr.drop off := by
          intro x hx
          rw [hd0, List.cons_prefix_cons]
          refine ⟨rfl, ?_⟩
          conv_rhs => rw [← List.take_append_drop (arr[off]).toNat (arr.drop (off + 1))]
          rw [List.prefix_append_right_inj, List.drop_drop, show off + 1 + (arr[off]).toNat = off + (1 + (arr[off]).toNat) by omega]
          exact hx
        cases hd : Trust.decode ((arr.drop (off + 1)).take (arr[off]).toNat) with
        | ok t =>
          simp only [Outcome.mapErr_ok, Outcome.ok_bind]
          have ht := Trust.decode_ok_iff.mp hd
          have hfit : Fits t := ⟨ht.2.1, ht.2.2.1, ht.2.2.2, by rw [← ht.1, hlen]; omega⟩
          have hblock : block t = arr[off] :: (arr.drop (off + 1)).take (arr[off]).toNat := by
            unfold block
            rw [← ht.1, hlen, UInt8.ofNat_toNat]
          have : (decodeLoop arr n (off + (1 + (arr[off]).toNat)) >>= fun rest => Outcome.ok (t :: rest)) = .panic ↔
              decodeLoop arr n (off + (1 + (arr[off]).toNat)) = .panic := by
            cases decodeLoop arr n (off + (1 + (arr[off]).toNat)) <;> simp [Bind.bind, Outcome.bind]
          rw [this, ih]
          constructor
          · rintro ⟨ts, bs, q1, q2, q3, q4, q5⟩
            refine ⟨t :: ts, bs, by simp only [List.length_cons]; omega, ?_, q3, q4, ?_⟩
            · intro x hx
              rcases List.mem_cons.mp hx with rfl | hx
              · exact hfit
              · exact q2 x hx
            · rw [List.flatMap_cons, hblock, List.append_assoc, List.cons_append]
              exact join _ q5
          · rintro ⟨ts, bs, q1, q2, q3, q4, q5⟩
            rcases ts with _ | ⟨u, ts⟩
            · obtain ⟨-, e, -⟩ := len (x := []) q3 (by simpa using q5)
              rw [← e, q4] at hd
              cases hd
            · rw [List.flatMap_cons, List.append_assoc] at q5
              obtain ⟨-, e, q6⟩ := len (q2 u (.head _)).2.2.2 q5
              exact ⟨ts, bs, by simp only [List.length_cons] at q1; omega, fun x hx => q2 x (.tail _ hx), q3, q4, q6⟩
        | err e =>
          constructor
          · intro h; cases h
          · rintro ⟨ts, bs, q1, q2, q3, q4, q5⟩
            rcases ts with _ | ⟨u, ts⟩
            · obtain ⟨-, e, -⟩ := len (x := []) q3 (by simpa using q5)
              rw [← e, q4] at hd
              cases hd
            · rw [List.flatMap_cons, List.append_assoc] at q5
              have hu := q2 u (.head _)
              obtain ⟨-, e, q6⟩ := len hu.2.2.2 q5
              rw [← e, Trust.decode_ok_iff.mpr ⟨rfl, hu.1, hu.2.1, hu.2.2.1⟩] at hd
              cases hd
        | panic =>
          constructor
          · intro _
            refine ⟨[], _, by simp, by simp, by rw [hlen]; exact hlt, hd, ?_⟩
            rw [hlen, UInt8.ofNat_toNat]
            simpa using join [] List.nil_prefix
          · intro _; rfl
        | diverge => exact absurd hd (Trust.decode_ne_diverge _)
      · have : checkArrLen arr (off + 1 + (arr[off]).toNat) = .err .certificateLengthError := by
          unfold checkArrLen; rw [if_pos (by omega)]
        rw [this]
        constructor
        · intro h; cases h
        · rintro ⟨ts, bs, q1, q2, q3, q4, q5⟩
          exfalso
          have short : ∀ {bs x : Bytes}, bs.length < 256 → UInt8.ofNat bs.length :: bs ++ x <+: arr.drop off → False := by
            intro bs x hl hp
            obtain ⟨e, -, -⟩ := len hl hp
            have := hp.length_le
            simp only [List.length_append, List.length_cons, List.length_drop] at this
            omega
          rcases ts with _ | ⟨u, ts⟩
          · exact short (x := []) q3 (by simpa using q5)
          · rw [List.flatMap_cons, List.append_assoc] at q5
            exact short (q2 u (.head _)).2.2.2 q5
    · have : checkArrLen arr (off + 1) = .err .certificateLengthError := by
        unfold checkArrLen; rw [if_pos (by omega)]
      rw [this]
      constructor
      · intro h; cases h
      · rintro ⟨ts, bs, q1, q2, q3, q4, q5⟩
        have := q5.length_le
        simp only [List.length_append, List.length_cons, List.length_drop] at this
        omega

end Certificate

/-- **C49** for certificates, exactly when it holds: a panic needs two or more announced trusts, of which the first few can be read, and the next is one on which
`Trust::decode` panics (for which see `C49_trust_partial`).  Missing: those inputs. -/
theorem C49_certificate_exact_partial (arr : Bytes) :
    Certificate.decode arr = .panic ↔
      ∃ (header : Bytes) (n : UInt8) (ts : List Trust) (bs rest : Bytes), header.length = 6 ∧ 2 ≤ n.toNat ∧ ts.length < n.toNat ∧
        (∀ t ∈ ts, Trust.decode t.encode = .ok t ∧ t.encode.length < 256) ∧ bs.length < 256 ∧ Trust.decode bs = .panic ∧
        arr = header ++ n :: (ts.flatMap (fun t => UInt8.ofNat t.encode.length :: t.encode) ++ UInt8.ofNat bs.length :: bs ++ rest) := by
  have fits : ∀ t : Trust, Certificate.Fits t ↔ Trust.decode t.encode = .ok t ∧ t.encode.length < 256 := by
    intro t
    rw [Trust.decode_ok_iff]
    unfold Certificate.Fits
    tauto
  by_cases h1 : 7 ≤ arr.length
  · have hb : Certificate.index arr 6 = .ok arr[6] := by unfold Certificate.index; rw [List.getElem?_eq_getElem (by omega)]
    have e : Certificate.decode arr = if (arr[6]).toNat < 2 then .err .certificateLengthError
        else Certificate.decodeLoop arr (arr[6]).toNat 7 >>= fun chain => .ok ⟨chain⟩ := by
      unfold Certificate.decode
      rw [Certificate.checkArrLen_ok h1]
      simp only [Outcome.ok_bind, hb]
    have hsplit : arr = arr.take 6 ++ arr[6] :: arr.drop 7 := by
      rw [← List.drop_eq_getElem_cons (by omega), List.take_append_drop]
    rw [e]
    by_cases h2 : (arr[6]).toNat < 2
    · rw [if_pos h2]
      constructor
      · intro h; cases h
      · rintro ⟨hdr, n, ts, bs, r, q1, q2, -, -, -, -, q3⟩
        have : arr[6] = n := by
          simp only [q3]
          rw [List.getElem_append_right (by omega)]
          simp [q1]
        rw [this] at h2
        omega
    · rw [if_neg h2]
      have : (Certificate.decodeLoop arr (arr[6]).toNat 7 >>= fun chain => Outcome.ok (Certificate.mk chain)) = .panic ↔
          Certificate.decodeLoop arr (arr[6]).toNat 7 = .panic := by
        cases Certificate.decodeLoop arr (arr[6]).toNat 7 <;> simp [Bind.bind, Outcome.bind]
      rw [this, Certificate.decodeLoop_panic_iff]
      constructor
      · rintro ⟨ts, bs, q1, q2, q3, q4, r, q5⟩
        refine ⟨arr.take 6, arr[6], ts, bs, r, by rw [List.length_take]; omega, by omega, q1, fun t ht => (fits t).mp (q2 t ht), q3, q4, ?_⟩
        exact hsplit.trans (by rw [← q5]; rfl)
      · rintro ⟨hdr, n, ts, bs, r, p1, p2, p3, p4, p5, p6, p7⟩
        have hn : arr[6] = n := by
          simp only [p7]
          rw [List.getElem_append_right (by omega)]
          simp [p1]
        have hdrop : arr.drop 7 = ts.flatMap Certificate.block ++ UInt8.ofNat bs.length :: bs ++ r := by
          rw [p7, show 7 = hdr.length + 1 by omega, ← List.drop_drop, List.drop_left]
          rfl
        refine ⟨ts, bs, by rw [hn]; exact p3, fun t ht => (fits t).mpr (p4 t ht), p5, p6, ?_⟩
        rw [hdrop]
        exact List.prefix_append _ _
  · have : Certificate.decode arr = .err .certificateLengthError := by
      unfold Certificate.decode
      have : Certificate.checkArrLen arr (2 + 4 + 1) = .err .certificateLengthError := by
        unfold Certificate.checkArrLen; rw [if_pos (by omega)]
      rw [this]
      rfl
    rw [this]
    constructor
    · intro h; cases h
    · rintro ⟨hdr, n, ts, bs, r, q1, -, -, -, -, -, q3⟩
      rw [q3] at h1
      simp only [List.length_append, List.length_cons] at h1
      omega

/-- **C49** for the four lines of a trust: a panic needs an empty line for the key, or one for the signature after a key that can be read. -/
theorem C49_trust_text_partial (a b c d : Str) :
    Trust.convertFromStrings a b c d = .panic ↔ a = [] ∨ (∃ pk : PublicKey, a = Base58.encode pk.encode) ∧ b = [] := by
  have hempty : Trust.bs58StrToVec [] = .ok [] := rfl
  constructor
  · intro h
    rcases Trust.convertFromStrings_panic h with rfl | rfl
    · exact .inl rfl
    by_cases ha0 : a = []
    · exact .inl ha0
    refine .inr ⟨?_, rfl⟩
    unfold Trust.convertFromStrings Trust.bs58StrToVec at h
    cases hd : Base58.decode a with
    | none => rw [hd] at h; cases h
    | some bs =>
      rw [hd] at h
      simp only [Outcome.ofOption_some, Outcome.ok_bind] at h
      have ha := (Base58.encode_decode hd).symm
      have h0 : bs ≠ [] := by
        rintro rfl
        exact ha0 (by rw [ha]; rfl)
      rcases PublicKey.decode_cases h0 with ⟨pk, hpk⟩ | ⟨e, he⟩
      · exact ⟨pk, by rw [ha, PublicKey.decode_ok hpk]⟩
      · rw [he] at h
        cases h
  · rintro (rfl | ⟨⟨pk, rfl⟩, rfl⟩)
    · rfl
    · unfold Trust.convertFromStrings
      rw [show Trust.bs58StrToVec (Base58.encode pk.encode) = .ok pk.encode by
        unfold Trust.bs58StrToVec
        rw [Base58.decode_encode]
        rfl]
      simp only [Outcome.ok_bind, PublicKey.decode_encode, Outcome.mapErr_ok, hempty]
      rfl

/-- Lines that are the texts of trusts, four for each. -/
inductive TrustLines : List Str → Prop
  | nil : TrustLines []
  | cons {a b c d : Str} {t : Trust} {ls : List Str} (h : Trust.convertFromStrings a b c d = .ok t) (hs : TrustLines ls) : TrustLines (a :: b :: c :: d :: ls)

theorem fromStrLoop_panic_iff {i : Nat} {ls : List Str} (hl : ls.length % 4 = 0) :
    Certificate.fromStrLoop i ls = .panic ↔
      ∃ pre a b c d post, ls = pre ++ a :: b :: c :: d :: post ∧ TrustLines pre ∧ Trust.convertFromStrings a b c d = .panic := by
  fun_induction Certificate.fromStrLoop i ls with
  | case1 i a b c d rest ih =>
    have ih := ih (by simp only [List.length_cons] at hl; omega)
    cases hc : Trust.convertFromStrings a b c d with
    | panic => exact ⟨fun _ => ⟨[], a, b, c, d, rest, rfl, .nil, hc⟩, fun _ => rfl⟩
    | err e =>
      refine ⟨fun h => (by cases h), ?_⟩
      rintro ⟨pre, a', b', c', d', post, h1, h2, h3⟩
      cases h2 with
      | nil =>
        cases h1
        rw [hc] at h3
        cases h3
      | cons q qs =>
        cases h1
        rw [hc] at q
        cases q
    | diverge =>
      refine ⟨fun h => (by cases h), ?_⟩
      rintro ⟨pre, a', b', c', d', post, h1, h2, h3⟩
      cases h2 with
      | nil =>
        cases h1
        rw [hc] at h3
        cases h3
      | cons q qs =>
        cases h1
        rw [hc] at q
        cases q
    | ok t =>
      simp only [Outcome.mapErr_ok, Outcome.ok_bind]
      have : (Certificate.fromStrLoop (i + 4) rest >>= fun ts => Outcome.ok (t :: ts)) = .panic ↔ Certificate.fromStrLoop (i + 4) rest = .panic := by
        cases Certificate.fromStrLoop (i + 4) rest <;> simp [Bind.bind, Outcome.bind]
      rw [this, ih]
      constructor
      · rintro ⟨pre, a', b', c', d', post, rfl, h2, h3⟩
        exact ⟨a :: b :: c :: d :: pre, a', b', c', d', post, rfl, .cons hc h2, h3⟩
      · rintro ⟨pre, a', b', c', d', post, h1, h2, h3⟩
        cases h2 with
        | nil =>
          cases h1
          rw [hc] at h3
          cases h3
        | cons q qs =>
          cases h1
          exact ⟨_, a', b', c', d', post, rfl, qs, h3⟩
  | case2 =>
    refine ⟨fun h => (by cases h), ?_⟩
    rintro ⟨pre, a, b, c, d, post, h, -⟩
    simp at h
  | case3 ls k h1 h2 =>
    exfalso
    rcases ls with _ | ⟨a, _ | ⟨b, _ | ⟨c, _ | ⟨d, r⟩⟩⟩⟩
    · exact h2 rfl
    · simp at hl
    · simp at hl
    · simp at hl
    · exact h1 a b c d r rfl

/-- **C49** for certificate texts, exactly when it holds: a panic needs fewer than two lines, or two lines and whole groups of four, of which the first few can be
read as trusts, and the next is one on which reading a trust panics (see `C49_trust_text_partial`).  Missing: those texts. -/
theorem C49_text_exact_partial (s : Str) :
    Certificate.fromStr s = .panic ↔
      (lines s).length < 2 ∨
      (lines s).length % 4 = 2 ∧ ∃ f v pre a b c d post, lines s = f :: v :: (pre ++ a :: b :: c :: d :: post) ∧ TrustLines pre ∧
        Trust.convertFromStrings a b c d = .panic := by
  unfold Certificate.fromStr
  rcases hl : lines s with _ | ⟨f, _ | ⟨v, rest⟩⟩
  · simp
  · simp
  · simp only [List.length_cons]
    have h2 : ¬ rest.length + 1 + 1 < 2 := by omega
    by_cases hm : rest.length % 4 = 0
    · rw [if_neg (by omega)]
      have : (Certificate.fromStrLoop 2 rest >>= fun chain => Outcome.ok (Certificate.newUnverified chain)) = .panic ↔
          Certificate.fromStrLoop 2 rest = .panic := by
        cases Certificate.fromStrLoop 2 rest <;> simp [Bind.bind, Outcome.bind]
      rw [this, fromStrLoop_panic_iff hm]
      constructor
      · rintro ⟨pre, a, b, c, d, post, rfl, h3, h4⟩
        exact .inr ⟨by omega, f, v, pre, a, b, c, d, post, rfl, h3, h4⟩
      · rintro (h | ⟨-, f', v', pre, a, b, c, d, post, h1, h3, h4⟩)
        · exact absurd h h2
        · cases h1
          exact ⟨pre, a, b, c, d, post, rfl, h3, h4⟩
    · rw [if_pos hm]
      constructor
      · intro h; cases h
      · rintro (h | ⟨h, -⟩)
        · exact absurd h h2
        · omega

end

namespace PanicsDemo
open TG.Toy
set_option maxRecDepth 100000

/-- C49: a certificate of two trusts, the second with an empty signature. -/
example : Certificate.decode ([0, 0, 0, 0, 0, 0, 2] ++ (UInt8.ofNat (trust 1 2 50 10).encode.length :: (trust 1 2 50 10).encode) ++ [1, 0]) = .panic :=
  (C49_certificate_exact_partial _).mpr ⟨[0, 0, 0, 0, 0, 0], 2, [trust 1 2 50 10], [0], [], rfl, by decide, by decide,
    by
      intro t ht
      obtain rfl := List.mem_singleton.mp ht
      decide +kernel, by decide, by decide +kernel, by simp⟩

/-- C49: after a readable trust, a key without a signature. -/
example : Certificate.fromStr ("a\nb\n".toList ++ (trust 1 2 50 10).toText ++ '\n' :: (Base58.encode (pk 1).encode ++ "\n\n5\n6\n".toList)) = .panic := by
  decide +kernel

end PanicsDemo
end TG
