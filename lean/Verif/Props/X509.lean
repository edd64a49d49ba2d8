/-
Property C68, which byte strings are decoded as X.509 encodings of RSA keys.
-/
import Verif.Props.SecretBytes

namespace TG

namespace Spec

/-- RFC 5280, 4.1: a SEQUENCE of the algorithm identifier, which is a SEQUENCE of the object identifier of rsaEncryption (1.2.840.113549.1.1.1) and NULL, and of
the key as a BIT STRING, whose first octet is not looked at.  Anything may follow. -/
def SubjectPublicKeyInfo (pk bytes : Bytes) : Prop :=
  ∃ info algorithm identifier null key bits more₀ more₁ more₂,
    bytes = info ++ more₀ ∧ Der.Object 0x30 (algorithm ++ key ++ more₁) info ∧ Der.Object 0x30 (identifier ++ null ++ more₂) algorithm ∧
    Der.Object 0x06 [0x2A, 0x86, 0x48, 0x86, 0xF7, 0x0D, 0x01, 0x01, 0x01] identifier ∧ Der.Object 0x05 [] null ∧ Der.Object 0x03 bits key ∧ pk = bits.tail

end Spec

/-- **C68**: what is decoded as an RSA key, and as which one. -/
theorem C68_x509_exactly (bs pk : Bytes) : Der.decodeX509 bs = some pk ↔ Spec.SubjectPublicKeyInfo pk bs := by
  constructor
  · intro h
    unfold Der.decodeX509 at h
    split at h
    · next t0 spki more₀ h0 =>
      split at h
      · next ht0 =>
        split at h
        · next t1 alg rest1 h1 =>
          split at h
          · next ht1 =>
            split at h
            · next t2 oid rest2 h2 =>
              split at h
              · next ht2 =>
                split at h
                · next t3 params more₂ h3 =>
                  split at h
                  · next ht3 =>
                    split at h
                    · next t4 bits more₁ h4 =>
                      split at h
                      · next ht4 =>
                        obtain ⟨rfl, rfl⟩ := ht2
                        obtain ⟨rfl, rfl⟩ := ht3
                        subst ht0; subst ht1; subst ht4
                        cases h
                        obtain ⟨info, i1, rfl⟩ := Der.parseTlv_sound h0
                        obtain ⟨algorithm, a1, rfl⟩ := Der.parseTlv_sound h1
                        obtain ⟨identifier, d1, rfl⟩ := Der.parseTlv_sound h2
                        obtain ⟨null, n1, rfl⟩ := Der.parseTlv_sound h3
                        obtain ⟨key, k1, rfl⟩ := Der.parseTlv_sound h4
                        refine ⟨info, algorithm, identifier, null, key, bits, more₀, more₁, more₂, rfl, ?_, ?_, d1, n1, k1, ?_⟩
                        · rwa [List.append_assoc]
                        · rwa [List.append_assoc]
                        · rw [List.drop_one]
                      · cases h
                    · cases h
                  · cases h
                · cases h
              · cases h
            · cases h
          · cases h
        · cases h
      · cases h
    · cases h
  · rintro ⟨info, algorithm, identifier, null, key, bits, more₀, more₁, more₂, rfl, i1, a1, d1, n1, k1, rfl⟩
    have h0 : Der.parseTlv (info ++ more₀) = _ := Der.parseTlv_complete i1
    have h1 : Der.parseTlv (algorithm ++ key ++ more₁) = some (0x30, identifier ++ null ++ more₂, key ++ more₁) := by
      rw [List.append_assoc]; exact Der.parseTlv_complete a1
    have h2 : Der.parseTlv (identifier ++ null ++ more₂) = some (0x06, Der.oidRsa, null ++ more₂) := by
      rw [List.append_assoc]; exact Der.parseTlv_complete d1
    have h3 : Der.parseTlv (null ++ more₂) = _ := Der.parseTlv_complete n1
    have h4 : Der.parseTlv (key ++ more₁) = _ := Der.parseTlv_complete k1
    unfold Der.decodeX509
    simp only [h0, h1, h2, h3, h4, Der.oidRsa, and_self, if_true, List.drop_one]

/-- A key of another kind (id-ecPublicKey, 1.2.840.10045.2.1) in the same form is refused. -/
example : Der.decodeX509 (Der.tlv 0x30 (Der.tlv 0x30 (Der.tlv 0x06 [0x2A, 0x86, 0x48, 0xCE, 0x3D, 0x02, 0x01] ++ Der.tlv 0x05 []) ++ Der.tlv 0x03 [0, 1, 2])) = none := by
  decide +kernel

/-- **C68**: one key has several encodings, because the number of unused bits is not looked at (F37). -/
theorem C68_several_encodings (pk : Bytes) (b : UInt8) (h : pk.length + 64 < 2 ^ 64) :
    Der.decodeX509 (Der.tlv 0x30 (Der.algorithmIdentifier ++ Der.tlv 0x03 (b :: pk))) = some pk := by
  have obj : ∀ t c, c.length < 2 ^ 64 → Spec.Der.Object t c (Der.tlv t c) := by
    intro t c hc
    have := Der.parseTlv_tlv t c [] hc
    obtain ⟨o, h1, h2⟩ := Der.parseTlv_sound this
    rw [List.append_nil, List.append_nil] at h2
    rwa [h2]
  have hl1 := Der.lenBytes_length_le (b :: pk).length (by simp; omega)
  have halg : Der.algorithmIdentifier.length = 15 := by decide +kernel
  rw [C68_x509_exactly]
  refine ⟨_, Der.algorithmIdentifier, Der.tlv 0x06 Der.oidRsa, Der.tlv 0x05 [], Der.tlv 0x03 (b :: pk), b :: pk, [], [], [], (List.append_nil _).symm, ?_, ?_,
    obj _ _ (by decide), obj _ _ (by decide), obj _ _ (by simp; omega), rfl⟩
  · rw [List.append_nil]
    refine obj _ _ ?_
    simp only [List.length_append, halg, Der.tlv, List.length_cons] at hl1 ⊢
    omega
  · rw [List.append_nil]
    exact obj _ _ (by decide +kernel)

end TG
