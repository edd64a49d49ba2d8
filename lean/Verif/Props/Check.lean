/-
Property C130: what a certificate proves to somebody who checks it themselves.
-/
import Verif.Spec.Check
import Verif.Props.Speech
import Verif.Props.Certificates

namespace TG
open Spec

section
variable [Env]

/-- A statement with the bytes of a trust is that trust, unless it is a revocation of an RSA key. -/
theorem Spec.Statement.message_trust {s : Statement} {k : PublicKey} {e i : UInt64} (h : s.message = (Statement.trust k e i).message)
    (hs : ∀ k t, s = .revocation k t → k.NotRsa) : s = .trust k e i := by
  cases s with
  | trust k' e' i' =>
    obtain ⟨rfl, he, hi⟩ := C39_trust_message_binds h
    simp only [Dur.ofSecs] at he hi
    rw [he, hi]
  | revocation k' t => exact absurd h.symm (C40_no_confusion_partial _ _ _ _ _ (hs k' t rfl))

theorem Spec.UnforgedRelation.said {said : PublicKey → Statement → Prop} {honest : PublicKey → Prop} {t : Trust} {a : PublicKey} {now : Dur}
    (h : UnforgedRelation said honest (.auth ⟨t, a⟩)) (hv : t.verify a now = .ok ()) (hk : honest a → a.NotSecp)
    (hr : ∀ a k t, honest a → said a (.revocation k t) → k.NotRsa) (ha : honest a) : said a (.trust t.issuedFor t.expiresAt.secs t.issuedAt.secs) := by
  obtain ⟨s, h1, h2⟩ := h ha (accepts_claim (q := .auth ⟨t, a⟩) (Trust.verify_signatureValid hv) (hk ha))
  rw [← Statement.message_trust (k := t.issuedFor) (e := t.expiresAt.secs) (i := t.issuedAt.secs) h2 (fun k t he => hr a k t ha (he ▸ h1))]
  exact h1

theorem Trust.verify_unexpired {t : Trust} {a : PublicKey} {now : Dur} (h : t.verify a now = .ok ()) : now.total ≤ t.expiresAt.total := by
  unfold Trust.verify at h
  split at h
  · cases h
  · rename_i hl
    rw [Bool.not_eq_true, ← Bool.not_eq_true, Dur.lt_iff] at hl
    omega

/-- The full statement: a certificate that verifies proves what it is meant to prove, wherever it comes from. -/
def C130_statement (said : PublicKey → Statement → Prop) (honest : PublicKey → Prop) (c : Certificate) : Prop :=
  ∀ roots now, c.verify roots now = .ok () → Proves said honest roots now c

/-- **C130**, if the honest keys are not Secp256k1 keys and their holders revoke no RSA keys.  Missing: Secp256k1 keys, for which it is false (`C130_fails`, finding F1), and
revocations of RSA keys, which may have the bytes of a trust (finding F16). -/
theorem C130_verified_partial {said : PublicKey → Statement → Prop} {honest : PublicKey → Prop} {c : Certificate} (hg : UnforgedCertificate said honest c)
    (hk : ∀ k, honest k → k.NotSecp) (hr : ∀ a k t, honest a → said a (.revocation k t) → k.NotRsa) : C130_statement said honest c := by
  intro roots now hv
  obtain ⟨h0, h1, h2⟩ := (C51_verify_decides c roots now).mp hv
  refine ⟨h0, ?_, ?_, ?_⟩
  · intro t ht
    obtain ⟨i, hi, rfl⟩ := List.getElem_of_mem ht
    cases i with
    | zero => exact Trust.verify_unexpired (h1 _ (List.getElem?_eq_getElem hi)).1
    | succ i => exact Trust.verify_unexpired (h2 i _ _ (List.getElem?_eq_getElem (Nat.lt_of_succ_lt hi)) (List.getElem?_eq_getElem hi))
  · intro t ht
    exact ⟨(h1 t ht).2, (hg.root t ht).said (h1 t ht).1 (hk _) hr⟩
  · intro i a b ha hb
    exact (hg.link i a b ha hb).said (h2 i a b ha hb) (hk _) hr

/-- **C130**: what is proved can be believed step by step: the last key is reached from a root by statements that have not expired. -/
theorem C130_reached {said : PublicKey → Statement → Prop} {honest : PublicKey → Prop} {roots : List PublicKey} {now : Dur} {c : Certificate}
    (h : Proves said honest roots now c) {t : Trust} (ht : t ∈ c.chain) : Reached said honest roots now t.issuedFor := by
  obtain ⟨i, hi, rfl⟩ := List.getElem_of_mem ht
  induction i with
  | zero => exact .root (h.root _ (List.getElem?_eq_getElem hi)).1
  | succ i ih =>
    have hi' := Nat.lt_of_succ_lt hi
    refine .next (ih hi' (List.getElem_mem hi')) ?_ (h.link i _ _ (List.getElem?_eq_getElem hi') (List.getElem?_eq_getElem hi))
    have := h.unexpired _ ht
    have n1 := now.nanos.isLt
    have n2 := (c.chain[i + 1]).expiresAt.nanos.isLt
    unfold Dur.total at this
    omega

/-- **C130**, the other direction: a certificate that is genuine and unexpired is accepted, with keys of any type. -/
theorem C130_genuine_accepted {c : Certificate} {roots : List PublicKey} {now : Dur} (hne : c.chain ≠ []) (hexp : ∀ t ∈ c.chain, now.total ≤ t.expiresAt.total)
    (hroot : ∀ t, c.chain[0]? = some t → t.issuedFor ∈ roots ∧
      t.issuedFor.Accepts (Env.sha256 (Statement.trust t.issuedFor t.expiresAt.secs t.issuedAt.secs).message) t.signature.raw)
    (hlink : ∀ (i : Nat) a b, c.chain[i]? = some a → c.chain[i + 1]? = some b →
      a.issuedFor.Accepts (Env.sha256 (Statement.trust b.issuedFor b.expiresAt.secs b.issuedAt.secs).message) b.signature.raw) :
    c.verify roots now = .ok () := by
  have key : ∀ (t : Trust) (a : PublicKey), t ∈ c.chain →
      a.Accepts (Env.sha256 (Statement.trust t.issuedFor t.expiresAt.secs t.issuedAt.secs).message) t.signature.raw → t.verify a now = .ok () := by
    intro t a hm ha
    have hv : a.verify (Trust.signatureBytes t.issuedFor t.expiresAt t.issuedAt) t.signature = .ok () := C41_genuine_accepted _ _ _ ha
    unfold Trust.verify
    rw [if_neg]
    · change Outcome.mapErr _ (a.verify _ _) = _
      rw [hv]
      rfl
    · rw [Dur.lt_iff]
      exact Nat.not_lt.mpr (hexp t hm)
  refine (C51_verify_decides c roots now).mpr ⟨hne, ?_, ?_⟩
  · exact fun t ht => ⟨key t _ (List.mem_of_getElem? ht) (hroot t ht).2, (hroot t ht).1⟩
  · exact fun i a b ha hb => key b _ (List.mem_of_getElem? hb) (hlink i a b ha hb)

/-- **C130** for a single trust, as checked by `Trust::verify`. -/
theorem C130_trust_partial {said : PublicKey → Statement → Prop} {honest : PublicKey → Prop} {t : Trust} {a : PublicKey} {now : Dur}
    (hg : UnforgedRelation said honest (.auth ⟨t, a⟩)) (hk : honest a → a.NotSecp) (hr : ∀ a k t, honest a → said a (.revocation k t) → k.NotRsa)
    (hv : t.verify a now = .ok ()) : now.total ≤ t.expiresAt.total ∧ (honest a → said a (.trust t.issuedFor t.expiresAt.secs t.issuedAt.secs)) :=
  ⟨Trust.verify_unexpired hv, hg.said hv hk hr⟩

/-- **C130** for a single revocation, as checked by `Revocation::verify`, if the revoked key is not an RSA key. -/
theorem C130_revocation_partial {said : PublicKey → Statement → Prop} {honest : PublicKey → Prop} {r : Revocation}
    (hg : UnforgedRelation said honest (.revocation r)) (hk : honest r.revokedBy → r.revokedBy.NotSecp) (hr : r.pk.NotRsa) (hv : r.verify = .ok ())
    (ha : honest r.revokedBy) : said r.revokedBy (.revocation r.pk r.revokedAt.secs) := by
  have hs : TrustRelation.SignatureValid (.revocation r) := by
    unfold Revocation.verify at hv
    change r.revokedBy.verify _ _ = _
    rcases hx : r.revokedBy.verify (Revocation.signatureBytes r.pk r.revokedAt) r.signature with u | e | _ | _ <;> rw [hx] at hv <;> first | rfl | cases hv
  obtain ⟨s, h1, h2⟩ := hg ha (accepts_claim (q := .revocation r) hs (hk ha))
  cases s with
  | trust k e i => exact absurd h2 (C40_no_confusion_partial _ _ _ _ _ hr)
  | revocation k t =>
    obtain ⟨hp, ht⟩ := C39_revocation_message_binds h2
    simp only [Dur.ofSecs] at ht
    change said r.revokedBy (.revocation k t) at h1
    rwa [hp, ht] at h1

end

namespace CheckDemo
open TG.Toy
set_option maxRecDepth 100000

/-- Key 1 has said that it trusts itself and key 2, and key 2 that it trusts key 3. -/
def said (k : PublicKey) (s : Statement) : Prop := (k = pk 1 ∧ (s = .trust (pk 1) 1000 1 ∨ s = .trust (pk 2) 900 2)) ∨ (k = pk 2 ∧ s = .trust (pk 3) 800 3)

def cert : Certificate := ⟨[trust 1 1 1000 1, trust 1 2 900 2, trust 2 3 800 3]⟩

theorem verifies : cert.verify [pk 1] (s 800) = .ok () := by decide +kernel

theorem genuine : UnforgedCertificate said (fun k => k = pk 1 ∨ k = pk 2) cert := by
  constructor
  · intro t ht _ _
    cases ht
    exact ⟨.trust (pk 1) 1000 1, .inl ⟨rfl, .inl rfl⟩, rfl⟩
  · intro i a b ha hb
    match i, ha, hb with
    | 0, ha, hb => cases ha; cases hb; exact fun _ _ => ⟨.trust (pk 2) 900 2, .inl ⟨rfl, .inr rfl⟩, rfl⟩
    | 1, ha, hb => cases ha; cases hb; exact fun _ _ => ⟨.trust (pk 3) 800 3, .inr ⟨rfl, rfl⟩, rfl⟩
    | n + 2, ha, hb => simp [cert] at hb

/-- C130: a certificate of three trusts that verifies. -/
example : Proves said (fun k => k = pk 1 ∨ k = pk 2) [pk 1] (s 800) cert :=
  C130_verified_partial genuine (by rintro k (rfl | rfl) <;> trivial) (by rintro a k t - (⟨-, h | h⟩ | ⟨-, h⟩) <;> cases h) [pk 1] (s 800) verifies

/-- C130: so key 3 is reached from key 1. -/
example : Reached said (fun k => k = pk 1 ∨ k = pk 2) [pk 1] (s 800) (pk 3) :=
  C130_reached (t := trust 2 3 800 3)
    (C130_verified_partial genuine (by rintro k (rfl | rfl) <;> trivial) (by rintro a k t - (⟨-, h | h⟩ | ⟨-, h⟩) <;> cases h) [pk 1] (s 800) verifies)
    (by simp [cert])

/-- C130: the same certificate meets the conditions for being accepted. -/
example : cert.verify [pk 1] (s 800) = .ok () := by
  refine C130_genuine_accepted (by simp [cert]) (by decide +kernel) ?_ ?_
  · intro t ht
    cases ht
    exact ⟨by decide +kernel, by change _ = _; decide +kernel⟩
  · intro i a b ha hb
    match i, ha, hb with
    | 0, ha, hb => cases ha; cases hb; change _ = _; decide +kernel
    | 1, ha, hb => cases ha; cases hb; change _ = _; decide +kernel
    | n + 2, ha, hb => simp [cert] at hb

/-- C130: a single trust. -/
example : (s 900).total ≤ (s 900).total ∧ ((pk 1 = pk 1 ∨ pk 1 = pk 2) → said (pk 1) (.trust (pk 2) 900 2)) :=
  C130_trust_partial (honest := fun k => k = pk 1 ∨ k = pk 2) (t := trust 1 2 900 2) (genuine.link 0 (trust 1 1 1000 1) (trust 1 2 900 2) rfl rfl) (fun _ => trivial)
    (by rintro a k t - (⟨-, h | h⟩ | ⟨-, h⟩) <;> cases h) (by decide +kernel)

/-- C130: a single revocation. -/
example : (revocation 1 2 5).verify = .ok () ∧ (fun k s => k = pk 1 ∧ s = Statement.revocation (pk 2) 5) (pk 1) (.revocation (pk 2) 5) :=
  have h : (revocation 1 2 5).verify = .ok () := by decide +kernel
  ⟨h, C130_revocation_partial (said := fun k s => k = pk 1 ∧ s = Statement.revocation (pk 2) 5) (honest := fun k => k = pk 1) (r := revocation 1 2 5)
    (fun _ _ => ⟨_, ⟨rfl, rfl⟩, rfl⟩) (fun _ => trivial) trivial h rfl⟩

/-- C130: one second later it does not verify. -/
example : cert.verify [pk 1] (s 801) ≠ .ok () := by decide +kernel

/-- A certificate made up by key 3 in the name of the Secp256k1 root. -/
def forged : Certificate :=
  ⟨[{ issuedFor := (skp 1).pub, expiresAt := s 1000, issuedAt := s 1, signature := .secp256k1 [0x30] },
    { issuedFor := pk 3, expiresAt := s 1000, issuedAt := s 1, signature := .secp256k1 [0x30] }]⟩

/-- **C130 fails** for Secp256k1 keys (finding F1): a made-up certificate verifies, although the scheme accepts none of its signatures and the root has said nothing. -/
theorem C130_fails : ∃ (c : Certificate) (honest : PublicKey → Prop) (said : PublicKey → Statement → Prop), UnforgedCertificate said honest c ∧ (∀ a s, ¬ said a s) ∧
    ¬ C130_statement said honest c := by
  refine ⟨forged, fun _ => True, fun _ _ => False, ⟨?_, ?_⟩, fun _ _ h => h, ?_⟩
  · intro t ht _ hacc
    cases ht
    exact absurd hacc.2 (by decide +kernel)
  · intro i a b ha hb
    match i, ha, hb with
    | 0, ha, hb =>
      cases ha
      cases hb
      intro _ hacc
      exact absurd hacc.2 (by decide +kernel)
    | n + 1, ha, hb => simp [forged] at hb
  · intro h
    exact (((h [(skp 1).pub] (s 5) (by decide +kernel)).root _ rfl).2 trivial)

end CheckDemo

end TG
