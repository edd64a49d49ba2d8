/-
The texts of errors for different reasons begin differently, once digits are left out.
-/
import Verif.Model.ErrorText
import Verif.Spec.ErrorText

namespace TG.ErrorText
open Spec Spec.Reason

/-- A text without its digits. -/
def squash (s : Str) : Str := s.filter (fun c => !c.isDigit)

/-- Beginnings of texts and their reasons. -/
abbrev Table := List (Str × Reason)

/-- The text begins with an entry of the table with this reason. -/
def Covered (T : Table) (s : Str) (r : Reason) : Prop := ∃ p ∈ T, p.1 <+: squash s ∧ p.2 = r

/-- The table for texts that follow another text. -/
def after (h : Str) (T : Table) : Table := T.map (fun p => (squash h ++ p.1, p.2))

theorem Covered.after {T : Table} {s h : Str} {r : Reason} (hc : Covered T s r) : Covered (after h T) (h ++ s) r := by
  obtain ⟨p, hp, h1, h2⟩ := hc
  refine ⟨_, List.mem_map.mpr ⟨p, hp, rfl⟩, ?_, h2⟩
  unfold squash
  rw [List.filter_append, List.prefix_append_right_inj]
  exact h1

theorem Covered.mono {T U : Table} {s : Str} {r : Reason} (hc : Covered T s r) (h : ∀ p ∈ T, p ∈ U) : Covered U s r := by
  obtain ⟨p, hp, h1, h2⟩ := hc
  exact ⟨p, h p hp, h1, h2⟩

theorem Covered.of {T : Table} {h x : Str} {r : Reason} (hm : (squash h, r) ∈ T) : Covered T (h ++ x) r :=
  ⟨_, hm, by unfold squash; rw [List.filter_append]; exact List.prefix_append _ _, rfl⟩

theorem Covered.of' {T : Table} {h : Str} {r : Reason} (hm : (squash h, r) ∈ T) : Covered T h r := by
  have := Covered.of (x := []) hm
  rwa [List.append_nil] at this

theorem squash_showIndex (i : Nat) : squash (showIndex i) = [] := by
  unfold squash showIndex
  rw [List.filter_eq_nil_iff]
  intro c hc
  have := showU64_chars _ c hc
  revert c
  have : ∀ c ∈ "0123456789".toList, c.isDigit = true := by decide +kernel
  intro c _ hc
  simp [this c hc]

theorem Covered.number {T : Table} {h m s : Str} {i : Nat} {r : Reason} (hc : Covered T s r) :
    Covered (ErrorText.after (h ++ m) T) (h ++ showIndex i ++ m ++ s) r := by
  obtain ⟨p, hp, h1, h2⟩ := hc
  refine ⟨_, List.mem_map.mpr ⟨p, hp, rfl⟩, ?_, h2⟩
  have e : squash (h ++ showIndex i ++ m ++ s) = squash (h ++ m) ++ squash s := by
    have := squash_showIndex i
    unfold squash at this ⊢
    simp only [List.filter_append, this, List.nil_append, List.append_assoc]
  rw [e, List.prefix_append_right_inj]
  exact h1

/-- For `DecodingError`. -/
def dTable : Table := (["Failed to decode, invalid length: ", "Failed to decode with ed25519: ", "Failed to decode with RSA", "Failed to decode with secp256k1",
  "RSA keypair decoding is not supported yet", "Invalid type prefix", "Cannot decode public key from base58 :", "Raw signature decoding failed: type ",
  "public key is not inlined in peer id: "].map (fun s => (squash s.toList, unreadable)))

/-- For `TrustError`. -/
def tTable : Table := [("Trust is expired at: '", expired), ("Failed to verify signature ", signature), ("Cannot decode the public key: ", unreadable),
  ("Cannot parse `", unreadable), ("Cannot decode `", unreadable)].map (fun p => (squash p.1.toList, p.2)) ++ dTable

/-- For `CertificateError`. -/
def cTable : Table := [("Incorrect format of the certificate: ", unreadable),
  ("Incorrect length of an array. Should be 2 bytes of a format, 4 bytes of a version and 104 bytes for each trust", unreadable),
  ("Error while decoding a trust in a certificate: ", unreadable), ("Certificate is expired. Issued at ", expired),
  ("Certificate does not contain a trusted root.", noRoot), ("There is no `issued_by` public key in a certificate", noKey),
  ("The certificate must have at least 1 trust", tooShort), ("Cannot convert trust number ", unreadable),
  ("there cannot be paths without any nodes after adding verified certificates", impossible)].map (fun p => (squash p.1.toList, p.2)) ++
  (after "Root trust did not pass verification: ".toList tTable ++
    after ("Trust ".toList ++ " in chain did not pass verification: ".toList) tTable)

/-- For `TrustGraphError`. -/
def gTable : Table := [("Internal storage error: ", storage), ("There is no root for this certificate.", noRoot), ("Chain is empty", tooShort),
  ("Error on revoking a trust: ", signature), ("Path to ", noKey)].map (fun p => (squash p.1.toList, p.2)) ++
  (after "Certificate check error: ".toList cTable ++ after "Trust verification error: ".toList tTable)

/-- For `ServiceError`, but for `InvalidKeyFormat`. -/
def sTable : Table := [("peer id parse error: ", unreadable), ("public key extraction from peer id failed: ", unreadable),
  ("Cannot convert base58 string to bytes: ", unreadable), ("Cannot convert string to PublicKey: ", unreadable), ("Cannot decode peer id from string: ", unreadable),
  ("you should use host peer.timestamp_sec to pass timestamp: ", timestamp), ("trust can't be issued later than the current timestamp", future),
  ("revoke can't be issued later than the current timestamp", future), ("Root could add only by trust graph service owner", notOwner)].map
    (fun p => (squash p.1.toList, p.2)) ++ (gTable ++ (cTable ++ tTable))

theorem tables : ∀ p ∈ sTable, ∀ q ∈ sTable, p.1 <+: q.1 → p.2 = q.2 := by decide +kernel

theorem unambiguous {s : Str} {r r' : Reason} (h : Covered sTable s r) (h' : Covered sTable s r') : r = r' := by
  obtain ⟨p, hp, h1, rfl⟩ := h
  obtain ⟨q, hq, h2, rfl⟩ := h'
  rcases List.prefix_or_prefix_of_prefix h1 h2 with h | h
  · exact tables p hp q hq h
  · exact (tables q hq p hp h).symm

/-- Finds a beginning in its table. -/
macro "entry" : tactic => `(tactic| first
  | exact List.mem_append_left _ (List.mem_map.mpr ⟨(_, _), by simp, rfl⟩)
  | exact List.mem_map.mpr ⟨_, by simp, rfl⟩)

theorem decoding {e : DecodingError} {s : Str} (h : e.Says s) : Covered dTable s unreadable := by
  cases h
  case rawSignatureUnsupportedType x => rw [List.append_assoc]; exact .of (by entry)
  all_goals first
    | exact .of' (by entry)
    | exact .of (by entry)

theorem verification {e : VerificationError} {s : Str} (h : e.Says s) : ∃ x, s = "Failed to verify signature ".toList ++ x := by
  cases h <;> simp only [List.append_assoc] <;> exact ⟨_, rfl⟩

theorem trust {e : TrustError} {s : Str} (h : e.Says s) : Covered tTable s (ofTrust e) := by
  have d : ∀ {e : DecodingError} {s : Str}, e.Says s → Covered tTable s unreadable := fun h => (decoding h).mono fun p hp => List.mem_append_right _ hp
  cases h with
  | signatureError h =>
    obtain ⟨x, rfl⟩ := verification h
    exact .of (r := signature) (by entry)
  | publicKeyError h => exact d h
  | expired => simp only [List.append_assoc]; exact .of (r := expired) (by entry)
  | _ => simp only [List.append_assoc]; exact .of (r := unreadable) (by entry)

theorem cert {e : CertificateError} {s : Str} (h : e.Says s) : Covered cTable s (ofCertificate e) := by
  cases h with
  | malformedRoot h => exact ((trust h).after).mono fun p hp => List.mem_append_right _ (List.mem_append_left _ hp)
  | verificationError h => exact ((trust h).number).mono fun p hp => List.mem_append_right _ (List.mem_append_right _ hp)
  | incorrectByteLength => exact .of' (by entry)
  | noTrustedRoot => exact .of' (by entry)
  | keyInCertificateError => exact .of' (by entry)
  | certificateLengthError => exact .of' (by entry)
  | unexpected => exact .of' (by entry)
  | expirationError => simp only [List.append_assoc]; exact .of (r := expired) (by entry)
  | decodeTrustError => simp only [List.append_assoc]; exact .of (r := unreadable) (by entry)
  | _ => exact .of (r := unreadable) (by entry)

theorem graph {e : TrustGraphError} {s : Str} (h : e.Says s) : Covered gTable s (ofGraph e) := by
  cases h with
  | certificateCheckError h => exact ((cert h).after).mono fun p hp => List.mem_append_right _ (List.mem_append_left _ hp)
  | trustVerificationError h => exact ((trust h).after).mono fun p hp => List.mem_append_right _ (List.mem_append_right _ hp)
  | noRoot => exact .of' (by entry)
  | emptyChain => exact .of' (by entry)
  | addTrustError => rw [List.append_assoc]; exact .of (r := noKey) (by entry)
  | revokeCheckError => exact .of (r := signature) (by entry)
  | internalStorageError => exact .of (r := storage) (by entry)

theorem service {e : ServiceError} {s : Str} (h : e.Says s) : Covered sTable s (reason e) ∨ ∃ k, e = .dtoError (.invalidKeyFormat k) := by
  have t : ∀ {e : TrustError} {s : Str}, e.Says s → Covered sTable s (ofTrust e) :=
    fun h => (trust h).mono fun p hp => List.mem_append_right _ (List.mem_append_right _ (List.mem_append_right _ hp))
  cases h with
  | tgError h => exact .inl ((graph h).mono fun p hp => List.mem_append_right _ (List.mem_append_left _ hp))
  | certError h => exact .inl ((cert h).mono fun p hp => List.mem_append_right _ (List.mem_append_right _ (List.mem_append_left _ hp)))
  | trustError h => exact .inl (t h)
  | publicKeyDecodeError h => exact .inl (t (.publicKeyError h))
  | dtoError h =>
    cases h with
    | invalidKeyFormat h => exact .inr ⟨_, rfl⟩
    | _ => exact .inl (.of (r := unreadable) (by entry))
  | invalidTimestamp x h =>
    rcases h with rfl | rfl
    all_goals exact .inl (.of' (by decide +kernel))
  | notOwner => exact .inl (.of' (by entry))
  | invalidTimestampTetraplet => rw [List.append_assoc]; exact .inl (.of (r := timestamp) (by entry))
  | _ => exact .inl (.of (r := unreadable) (by entry))

/-! How the texts end. -/

/-- An ending without `c` that is found after `c` is found in the rest. -/
theorem suffix_after {w a x : Str} {c : Char} (hc : c ∉ w) (h : w <:+ a ++ c :: x) : w <:+ x := by
  have h3 : c :: x <:+ a ++ c :: x := List.suffix_append _ _
  rcases List.suffix_or_suffix_of_suffix h h3 with h | h
  · rcases List.suffix_cons_iff.mp h with rfl | h
    · exact absurd (.head _) hc
    · exact h
  · exact absurd (h.subset (.head _)) hc

theorem ends {a q : Str} (h1 : ¬ keyFormatEnd <:+ q) (h2 : ¬ q <:+ keyFormatEnd) : LibraryText (a ++ q) := by
  intro h
  have h : keyFormatEnd <:+ (' ' :: a) ++ q := h
  rcases List.suffix_or_suffix_of_suffix h (List.suffix_append _ q) with h | h
  · exact h1 h
  · exact h2 h

theorem ends' {q : Str} (h : ¬ keyFormatEnd <:+ ' ' :: q) : LibraryText q := h

theorem behind {p s : Str} (hp : [':', ' '] <:+ p) (h : LibraryText s) : LibraryText (p ++ s) := by
  obtain ⟨q, rfl⟩ := hp
  intro hs
  have hs : keyFormatEnd <:+ (' ' :: q) ++ ':' :: ' ' :: s := by simpa using hs
  exact h (suffix_after (by decide +kernel) hs)

theorem verification_end {e : VerificationError} {s : Str} (h : e.Says s) : LibraryText s := by
  cases h with
  | _ => exact behind ((by decide +kernel : [':', ' '] <:+ _).trans (List.suffix_append _ _)) ‹_›

theorem trust_end {e : TrustError} {s : Str} (h : e.Says s) (hr : ofTrust e ≠ unreadable) : LibraryText s := by
  cases h with
  | expired => exact ends (by decide +kernel) (by decide +kernel)
  | signatureError h => exact verification_end h
  | _ => exact absurd rfl hr

theorem cert_end {e : CertificateError} {s : Str} (h : e.Says s) (hr : ofCertificate e ≠ unreadable) : LibraryText s := by
  cases h with
  | expirationError => exact ends (by decide +kernel) (by decide +kernel)
  | malformedRoot h => exact behind (by decide +kernel) (trust_end h hr)
  | verificationError h => exact behind ((by decide +kernel : [':', ' '] <:+ _).trans (List.suffix_append _ _)) (trust_end h hr)
  | noTrustedRoot => exact ends' (by decide +kernel)
  | keyInCertificateError => exact ends' (by decide +kernel)
  | certificateLengthError => exact ends' (by decide +kernel)
  | unexpected => exact ends' (by decide +kernel)
  | _ => exact absurd rfl hr

theorem graph_end {e : TrustGraphError} {s : Str} (h : e.Says s) (hr : ofGraph e ≠ unreadable) : LibraryText s := by
  cases h with
  | internalStorageError x h => exact behind (by decide +kernel) h
  | noRoot => exact ends' (by decide +kernel)
  | emptyChain => exact ends' (by decide +kernel)
  | addTrustError => exact ends (by decide +kernel) (by decide +kernel)
  | certificateCheckError h => exact behind (by decide +kernel) (cert_end h hr)
  | trustVerificationError h => exact behind (by decide +kernel) (trust_end h hr)
  | revokeCheckError h =>
    cases h with
    | incorrectSignature h => exact behind (by decide +kernel) (behind (by decide +kernel) (verification_end h))

theorem service_end {e : ServiceError} {s : Str} (h : e.Says s) (hr : reason e ≠ unreadable) : LibraryText s := by
  cases h with
  | tgError h => exact graph_end h hr
  | certError h => exact cert_end h hr
  | trustError h => exact trust_end h hr
  | invalidTimestampTetraplet x c h => rcases h with rfl | rfl <;> exact ends (by decide +kernel) (by decide +kernel)
  | invalidTimestamp x h => exact ends (by decide +kernel) (by decide +kernel)
  | notOwner => exact ends' (by decide +kernel)
  | _ => exact absurd rfl hr

end TG.ErrorText
