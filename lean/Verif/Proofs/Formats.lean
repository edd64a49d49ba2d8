/-
Helper lemmas about the binary and text formats of trusts and certificates (trust.rs, certificate.rs).
-/
import Verif.Proofs.Codec
import Verif.Spec.Crypto
import Verif.Model.Certificate

namespace TG

section
variable [Env]

namespace Trust

omit [Env] in
theorem slice_append (a b c : Bytes) : Trust.slice (a ++ (b ++ c)) a.length (a.length + b.length) = .ok b := by
  unfold slice
  rw [if_pos (by simp)]
  simp

omit [Env] in
theorem index_append (a : Bytes) (x : UInt8) (c : Bytes) : Trust.index (a ++ x :: c) a.length = .ok x := by
  unfold index; simp

omit [Env] in
theorem checkArrLen_ok {arr : Bytes} {n : Nat} (h : n ≤ arr.length) : Trust.checkArrLen arr n = .ok () := by
  unfold checkArrLen; rw [if_neg (by omega)]

omit [Env] in
theorem leU64_le8 (x : UInt64) : leU64 (le8 x) = .ok x := by
  unfold leU64; rw [ofLe8_le8]

/-- The bytes of a trust read front to back: what `decode` computes, without offsets. -/
def parse : Bytes → Outcome TrustError Trust
  | [] => .err .decodeErrorInvalidSize
  | n :: r =>
    if r.length < n.toNat then .err .decodeErrorInvalidSize
    else (PublicKey.decode (r.take n.toNat)).mapErr TrustError.publicKeyError >>= fun pk =>
      match r.drop n.toNat with
      | [] => .err .decodeErrorInvalidSize
      | m :: q =>
        if q.length < m.toNat then .err .decodeErrorInvalidSize
        else (Signature.decode (q.take m.toNat)).mapErr TrustError.publicKeyError >>= fun sg =>
          if (q.drop m.toNat).length < 16 then .err .decodeErrorInvalidSize
          else leU64 ((q.drop m.toNat).take 8) >>= fun e =>
            leU64 ((q.drop m.toNat).drop 8) >>= fun i =>
              .ok { issuedFor := pk, signature := sg, expiresAt := .ofSecs e, issuedAt := .ofSecs i }

omit [Env] in
theorem leU64_of_length {bs : Bytes} (h : bs.length = 8) : ∃ x, bs = le8 x ∧ leU64 bs = .ok x := by
  obtain ⟨x, hx⟩ := Option.isSome_iff_exists.mp (ofLe8_isSome_iff.mpr h)
  exact ⟨x, ofLe8_eq_some_iff.mp hx, by unfold leU64; rw [hx]⟩

omit [Env] in
theorem leU64_panic {bs : Bytes} (h : bs.length ≠ 8) : leU64 bs = .panic := by
  unfold leU64
  cases hx : ofLe8 bs with
  | none => rfl
  | some x => exact absurd (ofLe8_isSome_iff.mp (by rw [hx]; rfl)) h

omit [Env] in
theorem slice_of_append (a b : Bytes) (n : Nat) (h : n ≤ b.length) :
    Trust.slice (a ++ b) a.length (a.length + n) = .ok (b.take n) := by
  unfold slice
  rw [if_pos (by simp; omega)]
  simp

theorem decode_eq_parse (arr : Bytes) : decode arr = parse arr := by
  cases arr with
  | nil => rfl
  | cons n r =>
    unfold decode parse
    have i0 : index (n :: r) 0 = .ok n := rfl
    rw [checkArrLen_ok (by simp)]
    simp only [Outcome.ok_bind, i0]
    by_cases h1 : r.length < n.toNat
    · rw [if_pos h1]
      have : checkArrLen (n :: r) (1 + n.toNat) = .err .decodeErrorInvalidSize := by
        unfold checkArrLen; rw [if_pos (by simp; omega)]
      rw [this]; rfl
    · rw [if_neg h1, checkArrLen_ok (by simp; omega)]
      have s1 : slice (n :: r) 1 (1 + n.toNat) = .ok (r.take n.toNat) := slice_of_append [n] r _ (by omega)
      simp only [Outcome.ok_bind, s1]
      cases hpk : (PublicKey.decode (r.take n.toNat)).mapErr TrustError.publicKeyError with
      | err e => rfl
      | panic => rfl
      | diverge => rfl
      | ok pk =>
        simp only [Outcome.ok_bind]
        cases hq : r.drop n.toNat with
        | nil =>
          have hl : r.length = n.toNat := by
            have := List.drop_eq_nil_iff.mp hq; omega
          have : checkArrLen (n :: r) (1 + n.toNat + 1) = .err .decodeErrorInvalidSize := by
            unfold checkArrLen; rw [if_pos (by simp; omega)]
          rw [this]; rfl
        | cons m q =>
          have hr : r = r.take n.toNat ++ m :: q := by rw [← hq, List.take_append_drop]
          have hlt : (n :: r.take n.toNat).length = 1 + n.toNat := by
            simp; omega
          have harr : n :: r = (n :: r.take n.toNat) ++ m :: q := by rw [List.cons_append, ← hr]
          have hlen : (n :: r).length = 1 + n.toNat + 1 + q.length := by
            rw [harr, List.length_append, hlt, List.length_cons]; omega
          have i1 : index (n :: r) (1 + n.toNat) = .ok m := by
            have := index_append (n :: r.take n.toNat) m q
            rw [hlt, ← harr] at this
            exact this
          rw [checkArrLen_ok (by omega)]
          simp only [Outcome.ok_bind, i1]
          by_cases h2 : q.length < m.toNat
          · rw [if_pos h2]
            have : checkArrLen (n :: r) (1 + n.toNat + 1 + m.toNat) = .err .decodeErrorInvalidSize := by
              unfold checkArrLen; rw [if_pos (by omega)]
            rw [this]; rfl
          · rw [if_neg h2, checkArrLen_ok (by omega)]
            have harr2 : n :: r = (n :: (r.take n.toNat ++ [m])) ++ q := by
              rw [harr]; simp
            have hlt2 : (n :: (r.take n.toNat ++ [m])).length = 1 + n.toNat + 1 := by
              simp; omega
            have s2 : slice (n :: r) (1 + n.toNat + 1) (1 + n.toNat + 1 + m.toNat) = .ok (q.take m.toNat) := by
              have := slice_of_append (n :: (r.take n.toNat ++ [m])) q m.toNat (by omega)
              rw [hlt2, ← harr2] at this
              exact this
            simp only [Outcome.ok_bind, s2]
            cases hsg : (Signature.decode (q.take m.toNat)).mapErr TrustError.publicKeyError with
            | err e => rfl
            | panic => rfl
            | diverge => rfl
            | ok sg =>
              simp only [Outcome.ok_bind]
              have harr3 : n :: r = (n :: (r.take n.toNat ++ [m]) ++ q.take m.toNat) ++ q.drop m.toNat := by
                rw [List.append_assoc, List.take_append_drop]; exact harr2
              have hlt3 : (n :: (r.take n.toNat ++ [m]) ++ q.take m.toNat).length = 1 + n.toNat + 1 + m.toNat := by
                rw [List.length_append, hlt2, List.length_take]; omega
              have hdl : (q.drop m.toNat).length = q.length - m.toNat := List.length_drop
              generalize hd : q.drop m.toNat = d at harr3 hdl ⊢
              by_cases h3 : d.length < 16
              · rw [if_pos h3]
                by_cases h4 : d.length < 8
                · have : checkArrLen (n :: r) (1 + n.toNat + 1 + m.toNat + 8) = .err .decodeErrorInvalidSize := by
                    unfold checkArrLen; rw [if_pos (by omega)]
                  rw [this]; rfl
                · rw [checkArrLen_ok (by omega)]
                  have s3 : slice (n :: r) (1 + n.toNat + 1 + m.toNat) (1 + n.toNat + 1 + m.toNat + 8)
                      = .ok (d.take 8) := by
                    have := slice_of_append (n :: (r.take n.toNat ++ [m]) ++ q.take m.toNat) d 8 (by omega)
                    rw [hlt3, ← harr3] at this
                    exact this
                  obtain ⟨x, -, hx⟩ := leU64_of_length (bs := d.take 8) (by rw [List.length_take]; omega)
                  simp only [Outcome.ok_bind, s3, hx]
                  have : checkArrLen (n :: r) (1 + n.toNat + 1 + m.toNat + 8 + 8) = .err .decodeErrorInvalidSize := by
                    unfold checkArrLen; rw [if_pos (by omega)]
                  rw [this]; rfl
              · rw [if_neg h3, checkArrLen_ok (by omega)]
                have s3 : slice (n :: r) (1 + n.toNat + 1 + m.toNat) (1 + n.toNat + 1 + m.toNat + 8)
                    = .ok (d.take 8) := by
                  have := slice_of_append (n :: (r.take n.toNat ++ [m]) ++ q.take m.toNat) d 8 (by omega)
                  rw [hlt3, ← harr3] at this
                  exact this
                obtain ⟨x, -, hx⟩ := leU64_of_length (bs := d.take 8) (by rw [List.length_take]; omega)
                simp only [Outcome.ok_bind, s3, hx]
                rw [checkArrLen_ok (by omega)]
                have s4 : slice (n :: r) (1 + n.toNat + 1 + m.toNat + 8) (n :: r).length = .ok (d.drop 8) := by
                  have h5 : n :: r = (n :: (r.take n.toNat ++ [m]) ++ q.take m.toNat ++ d.take 8) ++ d.drop 8 := by
                    rw [List.append_assoc, List.take_append_drop]; exact harr3
                  have h6 : (n :: (r.take n.toNat ++ [m]) ++ q.take m.toNat ++ d.take 8).length
                      = 1 + n.toNat + 1 + m.toNat + 8 := by
                    rw [List.length_append, hlt3, List.length_take]; omega
                  have := slice_of_append (n :: (r.take n.toNat ++ [m]) ++ q.take m.toNat ++ d.take 8) (d.drop 8)
                    (d.drop 8).length (Nat.le_refl _)
                  rw [h6, ← h5, List.take_length] at this
                  rw [← this]
                  congr 1
                  rw [List.length_drop]; omega
                simp only [Outcome.ok_bind, s4]

theorem parse_key (pkb q : Bytes) (m : UInt8) (h1 : pkb.length < 256) (h2 : m.toNat ≤ q.length) :
    parse (UInt8.ofNat pkb.length :: (pkb ++ m :: q)) =
      ((PublicKey.decode pkb).mapErr TrustError.publicKeyError >>= fun pk =>
        (Signature.decode (q.take m.toNat)).mapErr TrustError.publicKeyError >>= fun sg =>
          if (q.drop m.toNat).length < 16 then .err .decodeErrorInvalidSize
          else leU64 ((q.drop m.toNat).take 8) >>= fun e =>
            leU64 ((q.drop m.toNat).drop 8) >>= fun i =>
              .ok { issuedFor := pk, signature := sg, expiresAt := .ofSecs e, issuedAt := .ofSecs i }) := by
  have e1 : (UInt8.ofNat pkb.length).toNat = pkb.length := by rw [UInt8.toNat_ofNat']; omega
  unfold parse
  dsimp only
  rw [e1, if_neg (by simp), List.take_left, List.drop_left]
  have h2' : ¬ q.length < m.toNat := by omega
  simp only [if_neg h2']

theorem parse_layout (pkb sgb r : Bytes) (h1 : pkb.length < 256) (h2 : sgb.length < 256) :
    parse (UInt8.ofNat pkb.length :: (pkb ++ (UInt8.ofNat sgb.length :: (sgb ++ r)))) =
      ((PublicKey.decode pkb).mapErr TrustError.publicKeyError >>= fun pk =>
        (Signature.decode sgb).mapErr TrustError.publicKeyError >>= fun sg =>
          if r.length < 16 then .err .decodeErrorInvalidSize
          else leU64 (r.take 8) >>= fun e =>
            leU64 (r.drop 8) >>= fun i =>
              .ok { issuedFor := pk, signature := sg, expiresAt := .ofSecs e, issuedAt := .ofSecs i }) := by
  have e2 : (UInt8.ofNat sgb.length).toNat = sgb.length := by rw [UInt8.toNat_ofNat']; omega
  rw [parse_key _ _ _ h1 (by rw [e2]; simp), e2, List.take_left, List.drop_left]

/-- Exactly the encodings of trusts with whole-second times and short keys and signatures are decoded. -/
theorem decode_ok_iff {arr : Bytes} {t : Trust} :
    decode arr = .ok t ↔
      arr = t.encode ∧ t.WholeSeconds ∧ t.issuedFor.encode.length < 256 ∧ t.signature.encode.length < 256 := by
  rw [decode_eq_parse]
  constructor
  · intro h
    cases arr with
    | nil => cases h
    | cons n r =>
      simp only [parse] at h
      split at h
      · cases h
      next h1 =>
      obtain ⟨pk, hpk, h⟩ := Outcome.bind_eq_ok.mp h
      rw [Outcome.mapErr_eq_ok] at hpk
      have hpk := PublicKey.decode_ok hpk
      split at h
      · cases h
      next m q hq =>
      split at h
      · cases h
      next h2 =>
      obtain ⟨sg, hsg, h⟩ := Outcome.bind_eq_ok.mp h
      rw [Outcome.mapErr_eq_ok] at hsg
      have hsg := Signature.decode_ok hsg
      split at h
      · cases h
      next h3 =>
      obtain ⟨e, he, h⟩ := Outcome.bind_eq_ok.mp h
      obtain ⟨i, hi, h⟩ := Outcome.bind_eq_ok.mp h
      cases h
      have key : ∀ {bs : Bytes} {x : UInt64}, leU64 bs = .ok x → bs = le8 x := by
        intro bs x hx
        unfold leU64 at hx
        split at hx
        · next y hy => cases hx; exact ofLe8_eq_some_iff.mp hy
        · cases hx
      have l1 : pk.encode.length = n.toNat := by rw [← hpk, List.length_take]; omega
      have l2 : sg.encode.length = m.toNat := by rw [← hsg, List.length_take]; omega
      refine ⟨?_, ⟨Dur.ofSecs_whole _, Dur.ofSecs_whole _⟩, by
        show pk.encode.length < 256
        have := n.toNat_lt; omega, by
        show sg.encode.length < 256
        have := m.toNat_lt; omega⟩
      have e1 : UInt8.ofNat pk.encode.length = n := by rw [l1]; exact UInt8.ofNat_toNat
      have e2 : UInt8.ofNat sg.encode.length = m := by rw [l2]; exact UInt8.ofNat_toNat
      simp only [encode, e1, e2, Dur.ofSecs_secs]
      rw [← key he, ← key hi, ← hpk, ← hsg, List.take_append_drop, List.take_append_drop, ← hq, List.take_append_drop]
  · rintro ⟨rfl, ⟨hw1, hw2⟩, h1, h2⟩
    have e3 : (le8 t.expiresAt.secs ++ le8 t.issuedAt.secs).take 8 = le8 t.expiresAt.secs := by
      simpa using List.take_left (l₁ := le8 t.expiresAt.secs) (l₂ := le8 t.issuedAt.secs)
    have e4 : (le8 t.expiresAt.secs ++ le8 t.issuedAt.secs).drop 8 = le8 t.issuedAt.secs := by
      simpa using List.drop_left (l₁ := le8 t.expiresAt.secs) (l₂ := le8 t.issuedAt.secs)
    have h := parse_layout t.issuedFor.encode t.signature.encode (le8 t.expiresAt.secs ++ le8 t.issuedAt.secs) h1 h2
    refine (show parse t.encode = _ from h).trans ?_
    rw [PublicKey.decode_encode, Signature.decode_encode, e3, e4, leU64_le8, leU64_le8]
    have h3 : ¬ (le8 t.expiresAt.secs ++ le8 t.issuedAt.secs).length < 16 := by simp
    simp only [Outcome.mapErr_ok, Outcome.ok_bind, if_neg h3, hw1.eq, hw2.eq]

end Trust

/-! ### Panics -/

omit [Env] in
theorem toNat_zero {n : UInt8} (h : n.toNat = 0) : n = 0 := by
  apply UInt8.toNat.inj; rw [h]; simp

theorem KeyFormat.ofByte_cases (b : UInt8) : (∃ f, KeyFormat.ofByte b = .ok f) ∨ KeyFormat.ofByte b = .err .invalidTypeByte := by
  unfold KeyFormat.ofByte
  split
  · exact .inl ⟨_, rfl⟩
  split
  · exact .inl ⟨_, rfl⟩
  split
  · exact .inl ⟨_, rfl⟩
  · exact .inr rfl

/-- `PublicKey::decode` returns on every non-empty input. -/
theorem PublicKey.decode_cases {bs : Bytes} (h : bs ≠ []) :
    (∃ pk, PublicKey.decode bs = .ok pk) ∨ ∃ e, PublicKey.decode bs = .err e := by
  cases bs with
  | nil => exact absurd rfl h
  | cons b r =>
    unfold PublicKey.decode
    dsimp only
    rcases KeyFormat.ofByte_cases b with ⟨f, hf⟩ | hf <;> rw [hf]
    · cases f <;> simp only [Outcome.ok_bind]
      · unfold Ed25519.decode; repeat' split
        all_goals first | exact .inl ⟨_, rfl⟩ | exact .inr ⟨_, rfl⟩
      · exact .inl ⟨_, rfl⟩
      · unfold Secp256k1.decode; repeat' split
        all_goals first | exact .inl ⟨_, rfl⟩ | exact .inr ⟨_, rfl⟩
    · exact .inr ⟨_, rfl⟩

/-- `Signature::decode` returns on every non-empty input. -/
theorem Signature.decode_cases {bs : Bytes} (h : bs ≠ []) :
    (∃ s, Signature.decode bs = .ok s) ∨ ∃ e, Signature.decode bs = .err e := by
  cases bs with
  | nil => exact absurd rfl h
  | cons b r =>
    unfold Signature.decode
    dsimp only
    rcases KeyFormat.ofByte_cases b with ⟨f, hf⟩ | hf <;> rw [hf]
    · cases f <;> exact .inl ⟨_, rfl⟩
    · exact .inr ⟨_, rfl⟩

namespace Trust

/-- `Trust::decode` panics exactly on an empty key, an empty signature after a good key, or surplus bytes at the end. -/
theorem decode_panic_iff {arr : Bytes} :
    decode arr = .panic ↔
      (∃ r, arr = 0 :: r) ∨
      (∃ (pk : PublicKey) (r : Bytes), pk.encode.length < 256 ∧
        arr = UInt8.ofNat pk.encode.length :: (pk.encode ++ 0 :: r)) ∨
      (∃ (pk : PublicKey) (sg : Signature) (r : Bytes), pk.encode.length < 256 ∧ sg.encode.length < 256 ∧ 16 < r.length ∧
        arr = UInt8.ofNat pk.encode.length :: (pk.encode ++ (UInt8.ofNat sg.encode.length :: (sg.encode ++ r)))) := by
  rw [decode_eq_parse]
  constructor
  · intro h
    cases arr with
    | nil => cases h
    | cons n r =>
      simp only [parse] at h
      split at h
      · cases h
      next h1 =>
      by_cases h0 : r.take n.toNat = []
      · rcases List.take_eq_nil_iff.mp h0 with h0 | h0
        · exact .inl ⟨r, by rw [toNat_zero h0]⟩
        · subst h0
          refine .inl ⟨[], ?_⟩
          have : n.toNat = 0 := by simpa using h1
          rw [toNat_zero this]
      rcases PublicKey.decode_cases h0 with ⟨pk, hpk⟩ | ⟨e, he⟩
      · rw [hpk] at h
        have hpk := PublicKey.decode_ok hpk
        have l1 : pk.encode.length = n.toNat := by rw [← hpk, List.length_take]; omega
        have e1 : UInt8.ofNat pk.encode.length = n := by rw [l1]; exact UInt8.ofNat_toNat
        have hn := n.toNat_lt
        simp only [Outcome.mapErr_ok, Outcome.ok_bind] at h
        split at h
        · cases h
        next m q hq =>
        have hr : r = pk.encode ++ m :: q := by rw [← hpk, ← hq, List.take_append_drop]
        split at h
        · cases h
        next h2 =>
        by_cases h0' : q.take m.toNat = []
        · have hm : m = 0 := by
            rcases List.take_eq_nil_iff.mp h0' with h0' | h0'
            · exact toNat_zero h0'
            · subst h0'
              exact toNat_zero (by simpa using h2)
          exact .inr (.inl ⟨pk, q, by omega, by rw [e1, hr, hm]⟩)
        rcases Signature.decode_cases h0' with ⟨sg, hsg⟩ | ⟨e, he⟩
        · rw [hsg] at h
          have hsg := Signature.decode_ok hsg
          have l2 : sg.encode.length = m.toNat := by rw [← hsg, List.length_take]; omega
          have e2 : UInt8.ofNat sg.encode.length = m := by rw [l2]; exact UInt8.ofNat_toNat
          have hm := m.toNat_lt
          simp only [Outcome.mapErr_ok, Outcome.ok_bind] at h
          have hq' : q = sg.encode ++ q.drop m.toNat := by
            conv_lhs => rw [← List.take_append_drop m.toNat q, hsg]
          split at h
          · cases h
          next h3 =>
          refine .inr (.inr ⟨pk, sg, q.drop m.toNat, by omega, by omega, ?_, ?_⟩)
          · obtain ⟨x, -, hx⟩ := leU64_of_length (bs := (q.drop m.toNat).take 8) (by rw [List.length_take]; omega)
            rw [hx] at h
            simp only [Outcome.ok_bind] at h
            by_contra hlt
            obtain ⟨y, -, hy⟩ := leU64_of_length (bs := (q.drop m.toNat).drop 8) (by
              rw [List.length_drop (l := q.drop m.toNat)]; omega)
            rw [hy] at h
            cases h
          · rw [e1, e2, ← hq', hr]
        · rw [he] at h; cases h
      · rw [he] at h; cases h
  · rintro (⟨r, rfl⟩ | ⟨pk, r, hl, rfl⟩ | ⟨pk, sg, r, hl, hl', hr, rfl⟩)
    · simp [parse, PublicKey.decode]
    · rw [parse_key _ _ _ hl (by simp), PublicKey.decode_encode]
      rfl
    · obtain ⟨x, -, hx⟩ := leU64_of_length (bs := r.take 8) (by rw [List.length_take]; omega)
      have h3 : ¬ r.length < 16 := by omega
      rw [parse_layout _ _ _ hl hl', PublicKey.decode_encode, Signature.decode_encode, hx,
        leU64_panic (bs := r.drop 8) (by rw [List.length_drop]; omega)]
      simp only [Outcome.mapErr_ok, Outcome.ok_bind, if_neg h3, Outcome.panic_bind]

theorem decode_ne_diverge (arr : Bytes) : decode arr ≠ .diverge := by
  rw [decode_eq_parse]
  intro h
  cases arr with
  | nil => cases h
  | cons n r =>
    simp only [parse] at h
    split at h
    · cases h
    by_cases h0 : r.take n.toNat = []
    · rw [h0] at h; simp [PublicKey.decode] at h
    rcases PublicKey.decode_cases h0 with ⟨pk, hpk⟩ | ⟨e, he⟩
    · rw [hpk] at h
      simp only [Outcome.mapErr_ok, Outcome.ok_bind] at h
      split at h
      · cases h
      next m q hq =>
      split at h
      · cases h
      by_cases h0' : q.take m.toNat = []
      · rw [h0'] at h; simp [Signature.decode] at h
      rcases Signature.decode_cases h0' with ⟨sg, hsg⟩ | ⟨e, he⟩
      · rw [hsg] at h
        simp only [Outcome.mapErr_ok, Outcome.ok_bind] at h
        split at h
        · cases h
        · unfold leU64 at h
          split at h
          · simp only [Outcome.ok_bind] at h
            split at h <;> cases h
          · cases h
      · rw [he] at h; cases h
    · rw [he] at h; cases h

end Trust

namespace Certificate

omit [Env] in
theorem checkArrLen_ok {arr : Bytes} {n : Nat} (h : n ≤ arr.length) : Certificate.checkArrLen arr n = .ok () := by
  unfold checkArrLen; rw [if_neg (by omega)]

omit [Env] in
theorem checkArrLen_eq_ok {arr : Bytes} {n : Nat} (h : Certificate.checkArrLen arr n = .ok ()) : n ≤ arr.length := by
  unfold checkArrLen at h
  split at h
  · cases h
  · omega

/-- A trust as it appears inside an encoded certificate. -/
def block (t : Trust) : Bytes := UInt8.ofNat t.encode.length :: t.encode

/-- The trusts whose block can be read back. -/
def Fits (t : Trust) : Prop :=
  t.WholeSeconds ∧ t.issuedFor.encode.length < 256 ∧ t.signature.encode.length < 256 ∧ t.encode.length < 256

theorem decodeLoop_ok_iff (arr : Bytes) (n off : Nat) (ts : List Trust) :
    decodeLoop arr n off = .ok ts ↔
      ts.length = n ∧ (∀ t ∈ ts, Fits t) ∧ ts.flatMap block <+: arr.drop off := by
  induction n generalizing off ts with
  | zero =>
    simp only [decodeLoop, Outcome.ok.injEq, List.length_eq_zero_iff]
    constructor
    · rintro rfl; exact ⟨rfl, by simp, by simp⟩
    · rintro ⟨rfl, -, -⟩; rfl
  | succ n ih =>
    simp only [decodeLoop]
    constructor
    · intro h
      obtain ⟨⟨⟩, h1, h⟩ := Outcome.bind_eq_ok.mp h
      have h1 := checkArrLen_eq_ok h1
      obtain ⟨b, hb, h⟩ := Outcome.bind_eq_ok.mp h
      obtain ⟨⟨⟩, h2, h⟩ := Outcome.bind_eq_ok.mp h
      have h2 := checkArrLen_eq_ok h2
      obtain ⟨sl, hsl, h⟩ := Outcome.bind_eq_ok.mp h
      obtain ⟨t, ht, h⟩ := Outcome.bind_eq_ok.mp h
      obtain ⟨rest, hrest, h⟩ := Outcome.bind_eq_ok.mp h
      cases h
      rw [Outcome.mapErr_eq_ok, Trust.decode_ok_iff] at ht
      obtain ⟨rfl, hw, hl1, hl2⟩ := ht
      obtain ⟨hlen, hfit, hpre⟩ := (ih _ _).mp hrest
      have hsl' : (arr.drop (off + 1)).take b.toNat = t.encode := by
        unfold slice at hsl
        split at hsl
        · have := Outcome.ok.inj hsl
          rw [← this, show off + 1 + b.toNat - (off + 1) = b.toNat by omega]
        · cases hsl
      have hl : t.encode.length = b.toNat := by
        rw [← hsl', List.length_take, List.length_drop]; omega
      have hb' : arr[off]? = some b := by
        unfold index at hb
        split at hb
        · next b' hb' => cases hb; exact hb'
        · cases hb
      have hd : arr.drop off = b :: arr.drop (off + 1) := by
        obtain ⟨hlt, hget⟩ := List.getElem?_eq_some_iff.mp hb'
        rw [List.drop_eq_getElem_cons hlt, hget]
      refine ⟨by simp [hlen], ?_, ?_⟩
      · intro x hx
        rcases List.mem_cons.mp hx with rfl | hx
        · exact ⟨hw, hl1, hl2, by have := b.toNat_lt; omega⟩
        · exact hfit x hx
      · rw [List.flatMap_cons, hd]
        have e1 : UInt8.ofNat t.encode.length = b := by rw [hl]; exact UInt8.ofNat_toNat
        simp only [block, e1, List.cons_append]
        rw [List.cons_prefix_cons]
        refine ⟨rfl, ?_⟩
        rw [← List.take_append_drop b.toNat (arr.drop (off + 1)), hsl', List.drop_drop,
          List.prefix_append_right_inj]
        rw [show off + 1 + b.toNat = off + (1 + b.toNat) by omega]
        exact hpre
    · rintro ⟨hlen, hfit, hpre⟩
      cases ts with
      | nil => simp at hlen
      | cons t ts =>
        obtain ⟨tail, htail⟩ := hpre
        have hf := hfit t (by simp)
        have e1 : (UInt8.ofNat t.encode.length).toNat = t.encode.length := by
          rw [UInt8.toNat_ofNat']; have := hf.2.2.2; omega
        simp only [List.flatMap_cons, block, List.cons_append, List.append_assoc] at htail
        have hlt : off + 1 + t.encode.length ≤ arr.length := by
          have := congrArg List.length htail
          simp only [List.length_cons, List.length_append, List.length_drop] at this
          omega
        have hb : arr[off]? = some (UInt8.ofNat t.encode.length) := by
          have : (arr.drop off)[0]? = some (UInt8.ofNat t.encode.length) := by rw [← htail]; rfl
          simpa using this
        have hd : arr.drop (off + 1) = t.encode ++ (ts.flatMap block ++ tail) := by
          rw [← List.drop_drop, ← htail]; rfl
        have hi : index arr off = .ok (UInt8.ofNat t.encode.length) := by unfold index; rw [hb]
        have hs : slice arr (off + 1) (off + 1 + t.encode.length) = .ok t.encode := by
          unfold slice
          rw [if_pos ⟨by omega, hlt⟩, hd, show off + 1 + t.encode.length - (off + 1) = t.encode.length by omega,
            List.take_left]
        rw [checkArrLen_ok (by omega)]
        simp only [Outcome.ok_bind, hi, e1]
        rw [checkArrLen_ok hlt]
        simp only [Outcome.ok_bind, hs]
        rw [Trust.decode_ok_iff.mpr ⟨rfl, hf.1, hf.2.1, hf.2.2.1⟩]
        have := (ih (off + (1 + t.encode.length)) ts).mpr ⟨by simpa using hlen,
          fun x hx => hfit x (by simp [hx]), by
            rw [← Nat.add_assoc, ← List.drop_drop, hd, List.drop_left]
            exact List.prefix_append _ _⟩
        simp only [Outcome.mapErr_ok, Outcome.ok_bind, this]

/-- The successful decodings of certificates: seven bytes of header of which only the last counts, then the blocks. -/
theorem decode_ok_iff {arr : Bytes} {c : Certificate} :
    decode arr = .ok c ↔
      2 ≤ c.chain.length ∧ (∃ b, arr[6]? = some b ∧ b.toNat = c.chain.length) ∧ (∀ t ∈ c.chain, Fits t) ∧
        c.chain.flatMap block <+: arr.drop 7 := by
  unfold decode
  constructor
  · intro h
    obtain ⟨⟨⟩, h1, h⟩ := Outcome.bind_eq_ok.mp h
    obtain ⟨b, hb, h⟩ := Outcome.bind_eq_ok.mp h
    dsimp only at h
    split at h
    · cases h
    next h2 =>
    obtain ⟨ts, hts, h⟩ := Outcome.bind_eq_ok.mp h
    cases h
    obtain ⟨hl, hf, hp⟩ := (decodeLoop_ok_iff _ _ _ _).mp hts
    refine ⟨by dsimp only; omega, ⟨b, ?_, hl.symm⟩, hf, hp⟩
    unfold index at hb
    split at hb
    · next b' hb' => cases hb; exact hb'
    · cases hb
  · rintro ⟨h2, ⟨b, hb, hbl⟩, hf, hp⟩
    have hlen : 7 ≤ arr.length := by
      have := (List.getElem?_eq_some_iff.mp hb).1; omega
    rw [checkArrLen_ok hlen]
    have hi : index arr 6 = .ok b := by unfold index; rw [hb]
    simp only [Outcome.ok_bind, hi]
    rw [if_neg (by omega), (decodeLoop_ok_iff _ _ _ _).mpr ⟨hbl.symm, hf, hp⟩]
    rfl

theorem decodeLoop_panic {arr : Bytes} {n off : Nat} (h : decodeLoop arr n off = .panic) :
    ∃ bs, bs <:+: arr ∧ Trust.decode bs = .panic := by
  induction n generalizing off with
  | zero => cases h
  | succ n ih =>
    simp only [decodeLoop] at h
    by_cases h1 : off + 1 ≤ arr.length
    · rw [checkArrLen_ok h1] at h
      have hb : index arr off = .ok arr[off] := by unfold index; rw [List.getElem?_eq_getElem (by omega)]
      simp only [Outcome.ok_bind, hb] at h
      by_cases h2 : off + 1 + (arr[off]).toNat ≤ arr.length
      · rw [checkArrLen_ok h2] at h
        have hs : slice arr (off + 1) (off + 1 + (arr[off]).toNat) = .ok ((arr.drop (off + 1)).take (arr[off]).toNat) := by
          unfold slice
          rw [if_pos ⟨by omega, h2⟩, show off + 1 + (arr[off]).toNat - (off + 1) = (arr[off]).toNat by omega]
        simp only [Outcome.ok_bind, hs] at h
        cases hd : Trust.decode ((arr.drop (off + 1)).take (arr[off]).toNat) with
        | ok t =>
          rw [hd] at h
          simp only [Outcome.mapErr_ok, Outcome.ok_bind] at h
          cases hr : decodeLoop arr n (off + (1 + (arr[off]).toNat)) with
          | panic => exact ih hr
          | ok _ => rw [hr] at h; cases h
          | err _ => rw [hr] at h; cases h
          | diverge => rw [hr] at h; cases h
        | err e => rw [hd] at h; cases h
        | panic => exact ⟨_, (List.take_prefix _ _).isInfix.trans (List.drop_suffix _ _).isInfix, hd⟩
        | diverge => exact absurd hd (Trust.decode_ne_diverge _)
      · have : checkArrLen arr (off + 1 + (arr[off]).toNat) = .err .certificateLengthError := by
          unfold checkArrLen; rw [if_pos (by omega)]
        rw [this] at h; cases h
    · have : checkArrLen arr (off + 1) = .err .certificateLengthError := by
        unfold checkArrLen; rw [if_pos (by omega)]
      rw [this] at h; cases h

theorem decode_panic {arr : Bytes} (h : decode arr = .panic) : ∃ bs, bs <:+: arr ∧ Trust.decode bs = .panic := by
  unfold decode at h
  by_cases h1 : 7 ≤ arr.length
  · rw [checkArrLen_ok h1] at h
    have hb : index arr 6 = .ok arr[6] := by unfold index; rw [List.getElem?_eq_getElem (by omega)]
    simp only [Outcome.ok_bind, hb] at h
    split at h
    · cases h
    · cases hr : decodeLoop arr (arr[6]).toNat 7 with
      | panic => exact decodeLoop_panic hr
      | ok _ => rw [hr] at h; cases h
      | err _ => rw [hr] at h; cases h
      | diverge => rw [hr] at h; cases h
  · have : checkArrLen arr (2 + 4 + 1) = .err .certificateLengthError := by
      unfold checkArrLen; rw [if_pos (by omega)]
    rw [this] at h; cases h

end Certificate

/-! ### Text -/

omit [Env] in
theorem base58_clean (bs : Bytes) : '\n' ∉ Base58.encode bs ∧ '\r' ∉ Base58.encode bs := by
  constructor <;> intro h <;> have := Base58.encode_chars bs _ h <;> revert this <;> decide

omit [Env] in
theorem showU64_clean (x : UInt64) : '\n' ∉ showU64 x ∧ '\r' ∉ showU64 x := by
  constructor <;> intro h <;> have := showU64_chars x _ h <;> revert this <;> decide

namespace Trust

theorem lines_toText (t : Trust) (rest : Str) : lines (t.toText ++ '\n' :: rest) = t.textLines ++ lines rest := by
  unfold toText textLines
  simp only [List.append_assoc, List.cons_append]
  rw [lines_line _ _ (base58_clean _).1 (base58_clean _).2, lines_line _ _ (base58_clean _).1 (base58_clean _).2,
    lines_line _ _ (showU64_clean _).1 (showU64_clean _).2, lines_line _ _ (showU64_clean _).1 (showU64_clean _).2]
  rfl

theorem convertFromStrings_textLines (t : Trust) (h : t.WholeSeconds) :
    convertFromStrings (Base58.encode t.issuedFor.encode) (Base58.encode t.signature.encode) (showU64 t.expiresAt.secs)
      (showU64 t.issuedAt.secs) = .ok t := by
  unfold convertFromStrings bs58StrToVec strToDuration
  simp only [Base58.decode_encode, Outcome.ofOption_some, Outcome.ok_bind, PublicKey.decode_encode,
    Signature.decode_encode, Outcome.mapErr_ok, parseU64_showU64, h.1.eq, h.2.eq, Trust.new]

theorem convertFromStrings_panic {a b c d : Str} (h : convertFromStrings a b c d = .panic) : a = [] ∨ b = [] := by
  have key : ∀ {s : Str} {bs : Bytes}, bs58StrToVec s = .ok bs → s = Base58.encode bs := by
    intro s bs hs
    unfold bs58StrToVec at hs
    cases hd : Base58.decode s with
    | none => rw [hd] at hs; cases hs
    | some bs' => rw [hd] at hs; cases hs; exact (Base58.encode_decode hd).symm
  have key2 : ∀ {s : Str}, bs58StrToVec s = .panic → False := by
    intro s hs
    unfold bs58StrToVec at hs
    cases hd : Base58.decode s <;> rw [hd] at hs <;> cases hs
  have key3 : ∀ {s : Str}, strToDuration s = .panic → False := by
    intro s hs
    unfold strToDuration at hs
    split at hs <;> cases hs
  unfold convertFromStrings at h
  cases ha : bs58StrToVec a with
  | panic => exact (key2 ha).elim
  | err _ => rw [ha] at h; cases h
  | diverge => rw [ha] at h; cases h
  | ok pkb =>
    rw [ha, Outcome.ok_bind] at h
    by_cases h0 : pkb = []
    · left; rw [key ha, h0]; rfl
    · rcases PublicKey.decode_cases h0 with ⟨pk, hpk⟩ | ⟨e, he⟩
      · rw [hpk] at h
        simp only [Outcome.mapErr_ok, Outcome.ok_bind] at h
        cases hb : bs58StrToVec b with
        | panic => exact (key2 hb).elim
        | err _ => rw [hb] at h; cases h
        | diverge => rw [hb] at h; cases h
        | ok sgb =>
          rw [hb, Outcome.ok_bind] at h
          by_cases h1 : sgb = []
          · right; rw [key hb, h1]; rfl
          · rcases Signature.decode_cases h1 with ⟨sg, hsg⟩ | ⟨e, he⟩
            · rw [hsg] at h
              simp only [Outcome.mapErr_ok, Outcome.ok_bind] at h
              cases hc : strToDuration c with
              | panic => exact (key3 hc).elim
              | err _ => rw [hc] at h; cases h
              | diverge => rw [hc] at h; cases h
              | ok c' =>
                rw [hc, Outcome.ok_bind] at h
                cases hd : strToDuration d with
                | panic => exact (key3 hd).elim
                | err _ => rw [hd] at h; cases h
                | diverge => rw [hd] at h; cases h
                | ok d' => rw [hd] at h; cases h
            · rw [he] at h; cases h
      · rw [he] at h; cases h

end Trust

namespace Certificate

theorem lines_chain (ts : List Trust) : lines (ts.flatMap fun t => t.toText ++ ['\n']) = ts.flatMap Trust.textLines := by
  induction ts with
  | nil => rfl
  | cons t ts ih =>
    rw [List.flatMap_cons, List.flatMap_cons, ← ih, List.append_assoc, List.singleton_append, Trust.lines_toText]

theorem fromStrLoop_chain (ts : List Trust) (h : ∀ t ∈ ts, t.WholeSeconds) (i : Nat) :
    fromStrLoop i (ts.flatMap Trust.textLines) = .ok ts := by
  induction ts generalizing i with
  | nil => rfl
  | cons t ts ih =>
    rw [List.flatMap_cons]
    show fromStrLoop i (_ :: _ :: _ :: _ :: ts.flatMap Trust.textLines) = _
    rw [fromStrLoop, Trust.convertFromStrings_textLines t (h t (by simp)), ih (fun x hx => h x (by simp [hx]))]
    rfl

theorem length_textLines (ts : List Trust) : (ts.flatMap Trust.textLines).length = 4 * ts.length := by
  induction ts with
  | nil => rfl
  | cons t ts ih => rw [List.flatMap_cons, List.length_append, ih]; simp [Trust.textLines]; omega

theorem fromStr_toText (c : Certificate) (h : ∀ t ∈ c.chain, t.WholeSeconds) : fromStr c.toText = .ok c := by
  unfold fromStr toText
  rw [lines_line _ _ (base58_clean _).1 (base58_clean _).2, lines_line _ _ (base58_clean _).1 (base58_clean _).2,
    lines_chain]
  dsimp only
  rw [if_neg (by rw [length_textLines]; omega), fromStrLoop_chain _ h]
  rfl

theorem fromStrLoop_panic {i : Nat} {ls : List Str} (hl : ls.length % 4 = 0) (h : fromStrLoop i ls = .panic) :
    [] ∈ ls := by
  fun_induction fromStrLoop i ls with
  | case1 i a b c d rest ih =>
    cases hc : Trust.convertFromStrings a b c d with
    | panic => rcases Trust.convertFromStrings_panic hc with rfl | rfl <;> simp
    | err _ => rw [hc] at h; cases h
    | diverge => rw [hc] at h; cases h
    | ok t =>
      rw [hc] at h
      simp only [Outcome.mapErr_ok, Outcome.ok_bind] at h
      cases hr : fromStrLoop (i + 4) rest with
      | panic =>
        have := ih (by simp only [List.length_cons] at hl; omega) hr
        simp [this]
      | err _ => rw [hr] at h; cases h
      | diverge => rw [hr] at h; cases h
      | ok _ => rw [hr] at h; cases h
  | case2 => cases h
  | case3 ls k h1 h2 =>
    exfalso
    rcases ls with _ | ⟨a, _ | ⟨b, _ | ⟨c, _ | ⟨d, r⟩⟩⟩⟩
    · exact h2 rfl
    · simp at hl
    · simp at hl
    · simp at hl
    · exact h1 a b c d r rfl

theorem fromStr_panic {s : Str} (h : fromStr s = .panic) :
    (lines s).length < 2 ∨ [] ∈ (lines s).drop 2 := by
  unfold fromStr at h
  split at h
  · next f v rest hl =>
    right
    rw [hl]
    split at h
    · cases h
    · next hm =>
      cases hr : fromStrLoop 2 rest with
      | panic => exact fromStrLoop_panic (ls := rest) (by omega) hr
      | err _ => rw [hr] at h; cases h
      | diverge => rw [hr] at h; cases h
      | ok _ => rw [hr] at h; cases h
  · next hno =>
    left
    rcases hl : lines s with _ | ⟨a, _ | ⟨b, r⟩⟩
    · simp
    · simp
    · exact absurd hl (hno a b r)

theorem deserializeVec_serdeVec (cs : List Certificate) (h : ∀ c ∈ cs, ∀ t ∈ c.chain, t.WholeSeconds) :
    deserializeVec (serdeVec cs) = .ok cs := by
  induction cs with
  | nil => rfl
  | cons c cs ih =>
    show deserializeVec (c.toText :: serdeVec cs) = _
    rw [deserializeVec, fromStr_toText c (h c (by simp)), ih (fun x hx => h x (by simp [hx]))]
    rfl

end Certificate

end
end TG
