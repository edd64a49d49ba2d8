/-
Two graphs with other keys, other dates and other signatures, but the same events in the same order.
-/
import Mathlib.Data.List.Forall2
import Verif.Spec.Machine

namespace TG.Spec
variable [Env]

/-- Which keys, dates (in seconds) and signatures stand for each other. -/
structure Renaming where
  key : PublicKey → PublicKey → Prop
  date : UInt64 → UInt64 → Prop
  sig : Signature → Signature → Prop
  /-- Different keys stand for different keys. -/
  one : ∀ {a a' b b'}, key a a' → key b b' → (a = b ↔ a' = b')
  /-- The order of dates is the same. -/
  order : ∀ {x x' y y'}, date x x' → date y y' → (x < y ↔ x' < y')
  /-- No date passes the limit beyond which SQLite takes dates for negative. -/
  half : ∀ {x x'}, date x x' → (x.toNat < 2 ^ 63 ↔ x'.toNat < 2 ^ 63)

namespace Renaming
variable (ρ : Renaming)

/-- Points in time. -/
def time (d d' : Dur) : Prop := ρ.date d.secs d'.secs ∧ d.nanos = d'.nanos

/-- Trusts. -/
structure trust (t t' : Trust) : Prop where
  issuedFor : ρ.key t.issuedFor t'.issuedFor
  expiresAt : ρ.time t.expiresAt t'.expiresAt
  issuedAt : ρ.time t.issuedAt t'.issuedAt
  signature : ρ.sig t.signature t'.signature

/-- Revocations. -/
structure revocation (r r' : Revocation) : Prop where
  pk : ρ.key r.pk r'.pk
  revokedBy : ρ.key r.revokedBy r'.revokedBy
  revokedAt : ρ.time r.revokedAt r'.revokedAt
  signature : ρ.sig r.signature r'.signature

/-- Certificates. -/
def cert (c c' : Certificate) : Prop := List.Forall₂ ρ.trust c.chain c'.chain

/-- The signature of the one trust is genuine if that of the other is. -/
def Valid (a : PublicKey) (t : Trust) (a' : PublicKey) (t' : Trust) : Prop :=
  a.verify (Trust.signatureBytes t.issuedFor t.expiresAt t.issuedAt) t.signature = .ok () ↔
    a'.verify (Trust.signatureBytes t'.issuedFor t'.expiresAt t'.issuedAt) t'.signature = .ok ()

/-- Chains of trusts to be added: `a` is the issuer of the first. -/
inductive chain : PublicKey → List Trust → PublicKey → List Trust → Prop
  | nil {a a'} : chain a [] a' []
  | cons {a t ts a' t' ts'} : ρ.key a a' → ρ.trust t t' → Valid a t a' t' → chain t.issuedFor ts t'.issuedFor ts' → chain a (t :: ts) a' (t' :: ts')

/-- Calls. -/
inductive op : Op → Op → Prop
  | setRoot {k k' n} : ρ.key k k' → op (.setRoot k n) (.setRoot k' n)
  | addTrust {t t' a a' now now'} : ρ.trust t t' → ρ.key a a' → ρ.time now now' → Valid a t a' t' → op (.addTrust t a now) (.addTrust t' a' now')
  | add {t ts t' ts' now now'} : ρ.chain t.issuedFor (t :: ts) t'.issuedFor (t' :: ts') → ρ.time now now' →
      op (.add ⟨t :: ts⟩ now) (.add ⟨t' :: ts'⟩ now')
  | addEmpty {now now'} : op (.add ⟨[]⟩ now) (.add ⟨[]⟩ now')
  | revoke {r r' : Revocation} : ρ.revocation r r' →
      (r.revokedBy.verify (Revocation.signatureBytes r.pk r.revokedAt) r.signature = .ok () ↔
        r'.revokedBy.verify (Revocation.signatureBytes r'.pk r'.revokedAt) r'.signature = .ok ()) → op (.revoke r) (.revoke r')
  | weight {k k' now now'} : ρ.key k k' → ρ.time now now' → op (.weight k now) (.weight k' now')
  | weightFrom {k k' a a' now now'} : ρ.key k k' → ρ.key a a' → ρ.time now now' → op (.weightFrom k a now) (.weightFrom k' a' now')
  | getAllCerts {k k' now now'} : ρ.key k k' → ρ.time now now' → op (.getAllCerts k now) (.getAllCerts k' now')
  | getAllCertsFrom {k k' a a' now now'} : ρ.key k k' → ρ.key a a' → ρ.time now now' → op (.getAllCertsFrom k a now) (.getAllCertsFrom k' a' now')
  | getRevocations {k k'} : ρ.key k k' → op (.getRevocations k) (.getRevocations k')

/-- Answers: the same numbers, and lists that correspond except perhaps for the order. -/
inductive answer : Outcome TrustGraphError Answer → Outcome TrustGraphError Answer → Prop
  | unit : answer (.ok .unit) (.ok .unit)
  | weight (n) : answer (.ok (.weight n)) (.ok (.weight n))
  | certs {cs l cs'} : List.Forall₂ ρ.cert cs l → l.Perm cs' → answer (.ok (.certs cs)) (.ok (.certs cs'))
  | revocations {rs l rs'} : List.Forall₂ ρ.revocation rs l → l.Perm rs' → answer (.ok (.revocations rs)) (.ok (.revocations rs'))
  | noChain : answer (.err .emptyChain) (.err .emptyChain)
  | trust {e e'} : (e = .expired ↔ e' = .expired) → answer (.err (.trustVerificationError e)) (.err (.trustVerificationError e'))
  | revocation {e e'} : answer (.err (.revokeCheckError e)) (.err (.revokeCheckError e'))

end Renaming

end TG.Spec
