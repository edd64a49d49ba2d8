/-
With which error the functions that issue certificates refuse (C52, C53, C54), and what signing returns (C42).
-/
import Verif.Props.Certificates

namespace TG

section
variable [Env]

/-- **C53**, the refusals of `issue_with_trust`.  Dates the wrong way round are refused first, whatever the certificate is.  Then the certificate is verified, with its own root
trusted, and its error is passed on.  Then the issuer is looked for in the chain.  An empty certificate makes the function panic (see finding F13). -/
theorem C53_refused (issuedBy : PublicKey) (trust : Trust) (cert : Certificate) (now : Dur) :
    (trust.expiresAt.total < trust.issuedAt.total → Certificate.issueWithTrust issuedBy trust cert now = .err .expirationError) ∧
    (trust.issuedAt.total ≤ trust.expiresAt.total →
      (cert.chain = [] → Certificate.issueWithTrust issuedBy trust cert now = .panic) ∧
      ∀ root, cert.chain[0]? = some root →
        (∀ e, cert.verify [root.issuedFor] now = .err e → Certificate.issueWithTrust issuedBy trust cert now = .err e) ∧
        (cert.verify [root.issuedFor] now = .ok () → (∀ t ∈ cert.chain, t.issuedFor ≠ issuedBy) →
          Certificate.issueWithTrust issuedBy trust cert now = .err .keyInCertificateError)) := by
  unfold Certificate.issueWithTrust
  constructor
  · intro h
    rw [if_pos (Dur.lt_iff.mpr h)]
  intro h
  rw [if_neg (by rw [Dur.lt_iff]; omega)]
  obtain ⟨_ | ⟨r, rest⟩⟩ := cert
  · exact ⟨fun _ => rfl, fun root h => by simp at h⟩
  · refine ⟨fun h => by simp at h, ?_⟩
    rintro root ⟨⟩
    dsimp only
    constructor
    · intro e he
      rw [he]
      rfl
    · intro hv hk
      rw [hv, Outcome.ok_bind, Certificate.lastIndexOf_none_iff.mpr hk]

/-- **C52**, the same for `issue`. -/
theorem C52_refused (kp : KeyPair) (pk : PublicKey) (cert : Certificate) (e i now : Dur) (h : i.total ≤ e.total) :
    (cert.chain = [] → Certificate.issue kp pk cert e i now = .panic) ∧
    ∀ root, cert.chain[0]? = some root → ∀ x, cert.verify [root.issuedFor] now = .err x → Certificate.issue kp pk cert e i now = .err x := by
  unfold Certificate.issue
  rw [if_neg (by rw [Dur.lt_iff]; omega)]
  obtain ⟨_ | ⟨r, rest⟩⟩ := cert
  · exact ⟨fun _ => rfl, fun root h => by simp at h⟩
  · refine ⟨fun h => by simp at h, ?_⟩
    rintro root ⟨⟩ x hx
    dsimp only
    rw [hx]
    rfl

/-- **C54**, the refusals of `new_from_root_trust`: the root trust is checked first. -/
theorem C54_refused (rootTrust issued : Trust) (now : Dur) :
    (∀ e, rootTrust.verify rootTrust.issuedFor now = .err e → Certificate.newFromRootTrust rootTrust issued now = .err (.malformedRoot e)) ∧
    (rootTrust.verify rootTrust.issuedFor now = .ok () → ∀ e, issued.verify rootTrust.issuedFor now = .err e →
      Certificate.newFromRootTrust rootTrust issued now = .err (.verificationError 1 e)) := by
  unfold Certificate.newFromRootTrust
  constructor
  · intro e h
    rw [h]
    rfl
  · intro h e h'
    rw [h, h']
    rfl

/-- **C42**: signing returns; it fails only for an RSA key with which the message cannot be signed. -/
theorem C42_sign_total (kp : KeyPair) (msg : Bytes) :
    (∃ s, kp.sign msg = .ok s) ∨ (kp.sign msg = .err .rsa ∧ ∃ k n, kp = .rsa k n ∧ Env.rsaSign k msg = none) := by
  cases kp with
  | ed25519 sk l => exact .inl ⟨_, rfl⟩
  | rsa k n =>
    cases h : Env.rsaSign k msg with
    | some s => exact .inl ⟨.rsa s n, by simp [KeyPair.sign, h]⟩
    | none => exact .inr ⟨by simp [KeyPair.sign, h], k, n, rfl, h⟩
  | secp256k1 sk l v => exact .inl ⟨_, by simp only [KeyPair.sign, Env.sha256_length, if_true]; rfl⟩

end

/-! ### Examples, in the toy environment -/

section
open TG.Toy CertDemo
set_option maxRecDepth 100000

/-- C53: each refusal occurs, in this order of precedence. -/
example : Certificate.issueWithTrust (pk 9) (trust 3 4 5 100) ⟨[]⟩ (s 2000) = .err .expirationError ∧
    Certificate.issueWithTrust (pk 9) (trust 3 4 100 5) ⟨[]⟩ (s 10) = .panic ∧
    cert.verify [pk 1] (s 2000) = .err (.malformedRoot .expired) ∧
    Certificate.issueWithTrust (pk 9) (trust 3 4 100 5) cert (s 2000) = .err (.malformedRoot .expired) ∧
    Certificate.issueWithTrust (pk 9) (trust 3 4 100 5) cert (s 10) = .err .keyInCertificateError := by decide +kernel

/-- C52. -/
example : Certificate.issue (kp 3) (pk 4) cert (s 3000) (s 5) (s 2000) = .err (.malformedRoot .expired) ∧
    Certificate.issue (kp 3) (pk 4) ⟨[]⟩ (s 3000) (s 5) (s 10) = .panic := by decide +kernel

/-- C54. -/
example : Certificate.newFromRootTrust (trust 1 1 20 1) (trust 1 2 10 1) (s 50) = .err (.malformedRoot .expired) ∧
    Certificate.newFromRootTrust (trust 1 1 1000 1) (trust 1 2 10 1) (s 50) = .err (.verificationError 1 .expired) := by decide +kernel

end

end TG
