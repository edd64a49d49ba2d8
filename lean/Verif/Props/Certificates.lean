/-
Certificates and how they are issued: C51–C54.
-/
import Verif.Props.Keys

namespace TG

section
variable [Env]

namespace Certificate

theorem lastIndexOf_aux (pk : PublicKey) (chain : List Trust) (n : Nat) (hn : n ≤ chain.length) :
    match (List.range n).foldl (fun acc i => match chain[i]? with
      | some t => if t.issuedFor = pk then some i else acc
      | none => acc) none with
    | some i => i < n ∧ (∃ t, chain[i]? = some t ∧ t.issuedFor = pk) ∧
        ∀ j t, i < j → j < n → chain[j]? = some t → t.issuedFor ≠ pk
    | none => ∀ j t, j < n → chain[j]? = some t → t.issuedFor ≠ pk := by
  induction n with
  | zero => simp
  | succ n ih =>
    rw [List.range_succ, List.foldl_append, List.foldl_cons, List.foldl_nil, List.getElem?_eq_getElem (by omega : n < chain.length)]
    have ih := ih (by omega)
    dsimp only
    by_cases h : chain[n].issuedFor = pk
    · rw [if_pos h]
      exact ⟨by omega, ⟨_, List.getElem?_eq_getElem (by omega), h⟩, fun j t h1 h2 => by omega⟩
    · rw [if_neg h]
      split at ih
      · next i hi =>
        refine ⟨by omega, ih.2.1, fun j t h1 h2 hj => ?_⟩
        rcases Nat.lt_or_ge j n with h3 | h3
        · exact ih.2.2 j t h1 h3 hj
        · obtain rfl : j = n := by omega
          rw [List.getElem?_eq_getElem (by omega)] at hj
          cases hj
          exact h
      · next hi =>
        intro j t h2 hj
        rcases Nat.lt_or_ge j n with h3 | h3
        · exact ih j t h3 hj
        · obtain rfl : j = n := by omega
          rw [List.getElem?_eq_getElem (by omega)] at hj
          cases hj
          exact h

theorem lastIndexOf_spec (pk : PublicKey) (chain : List Trust) :
    match lastIndexOf pk chain with
    | some i => i < chain.length ∧ (∃ t, chain[i]? = some t ∧ t.issuedFor = pk) ∧
        ∀ j t, i < j → j < chain.length → chain[j]? = some t → t.issuedFor ≠ pk
    | none => ∀ j t, j < chain.length → chain[j]? = some t → t.issuedFor ≠ pk :=
  lastIndexOf_aux pk chain chain.length (Nat.le_refl _)

/-- The last position of a key in a chain. -/
def LastAt (pk : PublicKey) (chain : List Trust) (i : Nat) : Prop :=
  (∃ t, chain[i]? = some t ∧ t.issuedFor = pk) ∧ ∀ j t, i < j → chain[j]? = some t → t.issuedFor ≠ pk

theorem LastAt.unique {pk : PublicKey} {chain : List Trust} {i j : Nat} (hi : LastAt pk chain i) (hj : LastAt pk chain j) :
    i = j := by
  obtain ⟨⟨t, ht, htp⟩, hi⟩ := hi
  obtain ⟨⟨u, hu, hup⟩, hj⟩ := hj
  rcases Nat.lt_trichotomy i j with h | h | h
  · exact absurd hup (hi j u h hu)
  · exact h
  · exact absurd htp (hj i t h ht)

theorem lastIndexOf_some_iff {pk : PublicKey} {chain : List Trust} {i : Nat} :
    lastIndexOf pk chain = some i ↔ LastAt pk chain i := by
  have h := lastIndexOf_spec pk chain
  have key : ∀ k, lastIndexOf pk chain = some k → LastAt pk chain k := by
    intro k hk
    rw [hk] at h
    exact ⟨h.2.1, fun j t h1 hj => h.2.2 j t h1 (List.getElem?_eq_some_iff.mp hj).1 hj⟩
  refine ⟨key i, fun hi => ?_⟩
  cases hk : lastIndexOf pk chain with
  | some k => rw [(key k hk).unique hi]
  | none =>
    rw [hk] at h
    obtain ⟨⟨t, ht, htp⟩, -⟩ := hi
    exact absurd htp (h i t (List.getElem?_eq_some_iff.mp ht).1 ht)

theorem lastIndexOf_none_iff {pk : PublicKey} {chain : List Trust} :
    lastIndexOf pk chain = none ↔ ∀ t ∈ chain, t.issuedFor ≠ pk := by
  constructor
  · intro h t ht
    have h' := lastIndexOf_spec pk chain
    rw [h] at h'
    obtain ⟨j, hj⟩ := List.getElem?_of_mem ht
    exact h' j t (List.getElem?_eq_some_iff.mp hj).1 hj
  · intro h
    cases hk : lastIndexOf pk chain with
    | none => rfl
    | some k =>
      obtain ⟨⟨t, ht, htp⟩, -⟩ := lastIndexOf_some_iff.mp hk
      exact absurd htp (h t (List.mem_of_getElem? ht))

/-- Extending a prefix of a verifying chain with a trust that verifies under the last key of the prefix. -/
theorem verify_extend {chain : List Trust} {root : Trust} {i : Nat} {a new : Trust} {now : Dur}
    (hroot : chain[0]? = some root) (hv : root.verify root.issuedFor now = .ok ())
    (hlinks : ∀ (j : Nat) a b, j + 1 ≤ i → chain[j]? = some a → chain[j + 1]? = some b → b.verify a.issuedFor now = .ok ())
    (ha : chain[i]? = some a) (hnew : new.verify a.issuedFor now = .ok ()) :
    (⟨chain.take (i + 1) ++ [new]⟩ : Certificate).verify [root.issuedFor] now = .ok () := by
  have hlen : (chain.take (i + 1)).length = i + 1 := by
    have := (List.getElem?_eq_some_iff.mp ha).1
    rw [List.length_take]; omega
  have hget : ∀ j, j ≤ i → (chain.take (i + 1) ++ [new])[j]? = chain[j]? := by
    intro j hj
    rw [List.getElem?_append_left (by omega), List.getElem?_take_of_lt (by omega)]
  have hlast : (chain.take (i + 1) ++ [new])[i + 1]? = some new := by
    rw [List.getElem?_append_right (by omega), hlen]; simp
  rw [verify_iff]
  refine ⟨by simp, ?_, ?_⟩
  · intro t ht
    dsimp only at ht
    rw [hget 0 (by omega), hroot] at ht
    cases ht
    exact ⟨hv, by simp⟩
  · intro j x y hx hy
    dsimp only at hx hy
    have hj : j + 1 < (chain.take (i + 1) ++ [new]).length := (List.getElem?_eq_some_iff.mp hy).1
    rw [List.length_append, hlen, List.length_singleton] at hj
    rcases Nat.lt_or_ge (j + 1) (i + 1) with h | h
    · rw [hget _ (by omega)] at hx hy
      exact hlinks j x y (by omega) hx hy
    · obtain rfl : j = i := by omega
      rw [hget _ (Nat.le_refl _), ha] at hx
      rw [hlast] at hy
      cases hx; cases hy
      exact hnew

end Certificate

/-! ### C51 -/

/-- **C51**: a certificate verifies iff its first trust verifies under its own key, which is trusted, and every other trust under the
key of the one before. -/
theorem C51_verify_decides (c : Certificate) (roots : List PublicKey) (now : Dur) :
    c.verify roots now = .ok () ↔
      c.chain ≠ [] ∧
      (∀ t, c.chain[0]? = some t → t.verify t.issuedFor now = .ok () ∧ t.issuedFor ∈ roots) ∧
      ∀ (i : Nat) a b, c.chain[i]? = some a → c.chain[i + 1]? = some b → b.verify a.issuedFor now = .ok () :=
  Certificate.verify_iff

/-- Verification returns on every certificate: it neither panics nor diverges. -/
theorem C51_verify_total (c : Certificate) (roots : List PublicKey) (now : Dur) :
    c.verify roots now = .ok () ∨ ∃ e, c.verify roots now = .err e := by
  have hmap : ∀ {t : Trust} {k : PublicKey} {f : TrustError → CertificateError},
      (t.verify k now).mapErr f = .ok () ∨ ∃ e, (t.verify k now).mapErr f = .err e := by
    intro t k f
    rcases C38_verify_total t k now with h | ⟨e, h⟩ <;> rw [h]
    · exact .inl rfl
    · exact .inr ⟨_, rfl⟩
  obtain ⟨chain⟩ := c
  cases chain with
  | nil => exact .inr ⟨_, rfl⟩
  | cons root rest =>
    unfold Certificate.verify
    dsimp only
    rcases hmap (t := root) (k := root.issuedFor) (f := .malformedRoot) with h | ⟨e, h⟩ <;> rw [h]
    · rw [Outcome.ok_bind]
      split
      · have : ∀ l : List Nat, (∀ i ∈ l, 1 ≤ i ∧ i < (root :: rest).length) →
            forE (Certificate.verifyStep (root :: rest) now) l = .ok () ∨
              ∃ e, forE (Certificate.verifyStep (root :: rest) now) l = .err e := by
          intro l hl
          induction l with
          | nil => exact .inl rfl
          | cons i l ih =>
            have hi := hl i (by simp)
            have hstep : Certificate.verifyStep (root :: rest) now i = .ok () ∨
                ∃ e, Certificate.verifyStep (root :: rest) now i = .err e := by
              unfold Certificate.verifyStep
              rw [List.getElem?_eq_getElem hi.2, List.getElem?_eq_getElem (by omega : i - 1 < (root :: rest).length)]
              exact hmap
            rw [forE]
            rcases hstep with h | ⟨e, h⟩ <;> rw [h]
            · exact ih fun j hj => hl j (by simp [hj])
            · exact .inr ⟨_, rfl⟩
        apply this
        intro i hi
        rw [List.mem_reverse, List.mem_range'_1] at hi
        simp only [List.length_cons] at hi ⊢
        omega
      · exact .inr ⟨_, rfl⟩
    · exact .inr ⟨_, rfl⟩

/-- Trusting more roots or an earlier time never invalidates a certificate. -/
theorem C51_verify_mono (c : Certificate) (roots roots' : List PublicKey) (now now' : Dur) (hr : ∀ k ∈ roots, k ∈ roots')
    (hn : now'.total ≤ now.total) (h : c.verify roots now = .ok ()) : c.verify roots' now' = .ok () := by
  have hv : ∀ {t : Trust} {k : PublicKey}, t.verify k now = .ok () → t.verify k now' = .ok () := by
    intro t k ht
    rw [C38_verify_decides] at ht ⊢
    exact ⟨Nat.le_trans hn ht.1, ht.2⟩
  rw [C51_verify_decides] at h ⊢
  exact ⟨h.1, fun t ht => ⟨hv (h.2.1 t ht).1, hr _ (h.2.1 t ht).2⟩, fun i a b ha hb => hv (h.2.2 i a b ha hb)⟩

/-! ### C53, C54 -/

/-- What `issue_with_trust` accepts and returns. -/
theorem C53_result (issuedBy : PublicKey) (trust : Trust) (cert c : Certificate) (now : Dur) :
    Certificate.issueWithTrust issuedBy trust cert now = .ok c ↔
      trust.issuedAt.total ≤ trust.expiresAt.total ∧
      (∃ root, cert.chain[0]? = some root ∧ cert.verify [root.issuedFor] now = .ok ()) ∧
      ∃ i, Certificate.LastAt issuedBy cert.chain i ∧ c = ⟨cert.chain.take (i + 1) ++ [trust]⟩ := by
  unfold Certificate.issueWithTrust
  rw [← Nat.not_lt, ← Dur.lt_iff]
  split
  · next h => simp [h]
  next h =>
  obtain ⟨chain⟩ := cert
  cases chain with
  | nil => simp
  | cons root rest =>
    simp only [h, List.getElem?_cons_zero, Option.some.injEq, exists_eq_left', Outcome.bind_eq_ok]
    constructor
    · rintro ⟨⟨⟩, hv, hx⟩
      split at hx
      · cases hx
      · next i hi =>
        cases hx
        exact ⟨by simp, hv, i, Certificate.lastIndexOf_some_iff.mp hi, rfl⟩
    · rintro ⟨-, hv, i, hi, rfl⟩
      refine ⟨(), hv, ?_⟩
      rw [Certificate.lastIndexOf_some_iff.mpr hi]

/-- **C53**, when the trust that is appended was really signed by the issuer and has not expired.  Missing: without that hypothesis,
which the code does not check, it is false (`C53_issued_verifies_fails`). -/
theorem C53_issued_verifies_partial (issuedBy : PublicKey) (trust : Trust) (cert c : Certificate) (now : Dur)
    (ht : trust.verify issuedBy now = .ok ()) (h : Certificate.issueWithTrust issuedBy trust cert now = .ok c) :
    ∃ root, cert.chain[0]? = some root ∧ c.chain[0]? = some root ∧ c.verify [root.issuedFor] now = .ok () := by
  obtain ⟨-, ⟨root, hroot, hv⟩, i, hi, rfl⟩ := (C53_result _ _ _ _ _).mp h
  rw [C51_verify_decides] at hv
  obtain ⟨⟨a, ha, rfl⟩, -⟩ := hi
  refine ⟨root, hroot, ?_, Certificate.verify_extend hroot (hv.2.1 root hroot).1 (fun j x y _ => hv.2.2 j x y) ha ht⟩
  obtain ⟨_ | ⟨r, rest⟩⟩ := cert
  · simp at hroot
  · simpa using hroot

/-- **C54**: `new_from_root_trust` succeeds exactly if the certificate of its two trusts verifies, and returns it. -/
theorem C54_new_from_root_trust (rootTrust issued : Trust) (now : Dur) (c : Certificate) :
    Certificate.newFromRootTrust rootTrust issued now = .ok c ↔
      c = ⟨[rootTrust, issued]⟩ ∧ c.verify [rootTrust.issuedFor] now = .ok () := by
  unfold Certificate.newFromRootTrust
  simp only [Outcome.bind_eq_ok, Outcome.mapErr_eq_ok, Outcome.ok.injEq]
  constructor
  · rintro ⟨⟨⟩, h1, ⟨⟩, h2, rfl⟩
    refine ⟨rfl, (C51_verify_decides _ _ _).mpr ⟨by simp, ?_, ?_⟩⟩
    · rintro t ht
      cases ht
      exact ⟨h1, by simp⟩
    · rintro (_ | i) a b ha hb
      · cases ha; cases hb; exact h2
      · simp at hb
  · rintro ⟨rfl, hv⟩
    rw [C51_verify_decides] at hv
    exact ⟨(), (hv.2.1 _ rfl).1, (), hv.2.2 0 _ _ rfl rfl, rfl⟩

end

/-! ### C52 -/

section
variable [LawfulEnv]

/-- **C52** for `issue_root`: it verifies, with its root trusted, as long as the issued trust has not expired. -/
theorem C52_issue_root (kp : KeyPair) (pk : PublicKey) (e i : Dur) (hs : ∀ msg, kp.CanSign msg) :
    ∃ c t, Certificate.issueRoot kp pk e i = .ok c ∧ c.chain.map (·.issuedFor) = [kp.pub, pk] ∧
      c.chain[1]? = some t ∧ t.expiresAt = e ∧ t.issuedAt = i ∧
      ∀ now, now.secs.toNat < 2 ^ 64 - 1 → (c.verify [kp.pub] now = .ok () ↔ now.total ≤ e.total) := by
  obtain ⟨r, hr, hr1, hr2, hr3, hr4⟩ := C42_created_trust_verifies kp kp.pub (Dur.ofSecs (UInt64.ofNat (2 ^ 64 - 1))) i (hs _)
  obtain ⟨t, ht, ht1, ht2, ht3, ht4⟩ := C42_created_trust_verifies kp pk e i (hs _)
  refine ⟨⟨[r, t]⟩, t, by simp only [Certificate.issueRoot, hr, ht, Outcome.ok_bind], by simp [hr1, ht1], rfl, ht2, ht3, fun now hnow => ?_⟩
  rw [C51_verify_decides, ← ht4]
  constructor
  · intro h
    have := h.2.2 0 r t rfl rfl
    rwa [hr1] at this
  · intro h
    refine ⟨by simp, ?_, ?_⟩
    · rintro x hx
      cases hx
      refine ⟨?_, by simp [hr1]⟩
      rw [hr1, hr4]
      have h1 := now.nanos.isLt
      have h2 : (Dur.ofSecs (UInt64.ofNat (2 ^ 64 - 1))).total = (2 ^ 64 - 1) * 1000000000 := by decide +kernel
      rw [h2]
      unfold Dur.total
      omega
    · rintro (_ | j) a b ha hb
      · cases ha; cases hb; rw [hr1]; exact h
      · simp at hb

/-- **C52** for `issue`: exactly when it succeeds, and what it returns. -/
theorem C52_issue_result (kp : KeyPair) (pk : PublicKey) (cert c : Certificate) (e i now : Dur) :
    Certificate.issue kp pk cert e i now = .ok c ↔
      i.total ≤ e.total ∧
      (∃ root, cert.chain[0]? = some root ∧ cert.verify [root.issuedFor] now = .ok ()) ∧
      ∃ n t, Certificate.LastAt kp.pub cert.chain n ∧ Trust.create kp pk e i = .ok t ∧
        c = ⟨cert.chain.take (n + 1) ++ [t]⟩ := by
  unfold Certificate.issue
  rw [← Nat.not_lt, ← Dur.lt_iff]
  split
  · next h => simp [h]
  next h =>
  obtain ⟨chain⟩ := cert
  cases chain with
  | nil => simp
  | cons root rest =>
    simp only [h, List.getElem?_cons_zero, Option.some.injEq, exists_eq_left', Outcome.bind_eq_ok]
    constructor
    · rintro ⟨⟨⟩, hv, hx⟩
      split at hx
      · cases hx
      · next n hn =>
        obtain ⟨t, ht, hx⟩ := Outcome.bind_eq_ok.mp hx
        rw [Outcome.mapErr_eq_ok] at ht
        cases hx
        exact ⟨by simp, hv, n, t, Certificate.lastIndexOf_some_iff.mp hn, ht, rfl⟩
    · rintro ⟨-, hv, n, t, hn, ht, rfl⟩
      refine ⟨(), hv, ?_⟩
      rw [Certificate.lastIndexOf_some_iff.mpr hn, ht]
      rfl

/-- **C52** for `issue`: the result verifies with the same root trusted at every time at which the kept trusts and the new one are
unexpired; in particular at `now`. -/
theorem C52_issued_verifies (kp : KeyPair) (pk : PublicKey) (cert c : Certificate) (e i now now' : Dur)
    (h : Certificate.issue kp pk cert e i now = .ok c) (hx : now'.total ≤ e.total)
    (hc : ∀ t ∈ cert.chain, now'.total ≤ t.expiresAt.total) :
    ∃ root, cert.chain[0]? = some root ∧ c.chain[0]? = some root ∧ c.verify [root.issuedFor] now' = .ok () := by
  obtain ⟨-, ⟨root, hroot, hv⟩, n, t, hn, ht, rfl⟩ := (C52_issue_result _ _ _ _ _ _ _).mp h
  obtain ⟨⟨a, ha, hap⟩, -⟩ := hn
  rw [C51_verify_decides] at hv
  have hmove : ∀ {t : Trust} {k : PublicKey}, t ∈ cert.chain → t.verify k now = .ok () → t.verify k now' = .ok () := by
    intro t k hm ht
    rw [C38_verify_decides] at ht ⊢
    exact ⟨hc t hm, ht.2⟩
  have hnew : t.verify a.issuedFor now' = .ok () := by
    have hcs : kp.CanSign (Trust.signatureBytes pk e i) := by
      cases kp with
      | ed25519 => trivial
      | secp256k1 => trivial
      | rsa k n =>
        simp only [Trust.create, KeyPair.sign] at ht
        show (Env.rsaSign k _).isSome = true
        cases hs : Env.rsaSign k (Trust.signatureBytes pk e i) with
        | some _ => rfl
        | none => rw [hs] at ht; cases ht
    obtain ⟨t', ht', -, -, -, hver⟩ := C42_created_trust_verifies kp pk e i hcs
    rw [ht'] at ht
    cases ht
    rw [hap, hver]
    exact hx
  refine ⟨root, hroot, ?_, Certificate.verify_extend hroot (hmove (List.mem_of_getElem? hroot) (hv.2.1 root hroot).1)
    (fun j x y _ hx hy => hmove (List.mem_of_getElem? hy) (hv.2.2 j x y hx hy)) ha hnew⟩
  obtain ⟨_ | ⟨r, rest⟩⟩ := cert
  · simp at hroot
  · simpa using hroot

/-- **C52**: why `issue` fails. -/
theorem C52_issue_inverted_dates (kp : KeyPair) (pk : PublicKey) (cert : Certificate) (e i now : Dur) (h : e.total < i.total) :
    Certificate.issue kp pk cert e i now = .err .expirationError := by
  unfold Certificate.issue
  rw [if_pos (Dur.lt_iff.mpr h)]

theorem C52_issue_unknown_key (kp : KeyPair) (pk : PublicKey) (cert : Certificate) (root : Trust) (e i now : Dur)
    (h : i.total ≤ e.total) (hr : cert.chain[0]? = some root) (hv : cert.verify [root.issuedFor] now = .ok ())
    (hk : ∀ t ∈ cert.chain, t.issuedFor ≠ kp.pub) :
    Certificate.issue kp pk cert e i now = .err .keyInCertificateError := by
  unfold Certificate.issue
  rw [if_neg (by rw [Dur.lt_iff]; omega)]
  obtain ⟨_ | ⟨r, rest⟩⟩ := cert
  · simp at hr
  · cases hr
    dsimp only
    rw [hv, Outcome.ok_bind, Certificate.lastIndexOf_none_iff.mpr hk]

end

/-! ### Examples and refutations, in the toy environment -/

open TG.Toy

set_option maxRecDepth 100000

namespace CertDemo

/-- Root 1 → 2 → 3. -/
def cert : Certificate := ⟨[trust 1 1 1000 1, trust 1 2 100 1, trust 2 3 100 1]⟩

/-- A trust for key 4 that nobody signed. -/
def forged : Trust := ⟨pk 4, s 100, .ed25519 [], s 1⟩

end CertDemo
open CertDemo

/-- **C53 fails** (finding F11): an unsigned trust is appended without a check, and the result does not verify. -/
theorem C53_issued_verifies_fails :
    ∃ (by' : PublicKey) (t : Trust) (cert c : Certificate) (now : Dur),
      Certificate.issueWithTrust by' t cert now = .ok c ∧ ∀ roots, c.verify roots now ≠ .ok () := by
  refine ⟨pk 3, forged, cert, ⟨cert.chain ++ [forged]⟩, s 10, by decide +kernel, fun roots h => ?_⟩
  rw [C51_verify_decides] at h
  have := h.2.2 2 (trust 2 3 100 1) forged rfl rfl
  revert this
  decide +kernel

/-- C51: a certificate that verifies with root 1 trusted, and not with root 2. -/
example : cert.verify [pk 1] (s 10) = .ok () ∧ cert.verify [pk 2] (s 10) = .err .noTrustedRoot ∧
    (cert.verify [pk 1] (s 101)).isOk = false := by decide +kernel

/-- C52, C53: extending it at the end and in the middle. -/
example : (Certificate.issue (kp 3) (pk 4) cert (s 100) (s 5) (s 10)).isOk = true ∧
    (Certificate.issue (kp 2) (pk 4) cert (s 100) (s 5) (s 10)).isOk = true ∧
    Certificate.issue (kp 9) (pk 4) cert (s 100) (s 5) (s 10) = .err .keyInCertificateError ∧
    (Certificate.issueWithTrust (pk 3) (trust 3 4 100 5) cert (s 10)).isOk = true ∧
    (trust 3 4 100 5).verify (pk 3) (s 10) = .ok () := by decide +kernel

/-- C52: the roots of the toy environment can sign everything. -/
example : ∀ msg, (kp 1).CanSign msg := fun _ => trivial

/-- C54. -/
example : (Certificate.newFromRootTrust (trust 1 1 1000 1) (trust 1 2 100 1) (s 10)).isOk = true := by decide +kernel

end TG
