/-
Property C122: printing a key pair tells nothing but the public key.
-/
import Verif.Model.Debug
import Verif.Spec.Toy

namespace TG

/-- The byte that two hexadecimal digits spell. -/
def Spec.byteOf (a b : Char) : Nat :=
  let v (c : Char) := if c.toNat < 58 then c.toNat - 48 else c.toNat - 87
  v a * 16 + v b

theorem byteOf_hexDigit (n : Fin 256) : Spec.byteOf (hexDigit (n.val / 16)) (hexDigit (n.val % 16)) = n.val := by
  revert n
  decide +kernel

theorem hexByte_inj {a b : UInt8} (h : hexByte a = hexByte b) : a = b := by
  have ha := byteOf_hexDigit ⟨a.toNat, a.toNat_lt⟩
  have hb := byteOf_hexDigit ⟨b.toNat, b.toNat_lt⟩
  dsimp only at ha hb
  unfold hexByte at h
  simp only [List.cons.injEq, and_true] at h
  rw [h.1, h.2, hb] at ha
  exact (UInt8.toNat_inj.mp ha).symm

theorem hex_inj {a b : Bytes} (h : a.flatMap hexByte = b.flatMap hexByte) : a = b := by
  induction a generalizing b with
  | nil =>
    rcases b with _ | ⟨y, b⟩
    · rfl
    · exact absurd h (by simp [hexByte])
  | cons x a ih =>
    rcases b with _ | ⟨y, b⟩
    · exact absurd h (by simp [hexByte])
    · rw [List.flatMap_cons, List.flatMap_cons] at h
      obtain ⟨h1, h2⟩ := List.append_inj h rfl
      rw [hexByte_inj h1, ih h2]

variable [Env]

/-- **C122.**  Secret keys all print the same.  What a key pair prints depends on its public key alone: pairs with the same public key print the same.  If
the library prints different public keys differently, so do the pairs. -/
theorem C122_pairs (lib : Bytes → Str) (sk sk' : Bytes) :
    debugSecretKey sk = debugSecretKey sk' ∧
    (Env.edPublic sk = Env.edPublic sk' → debugEd25519 lib sk = debugEd25519 lib sk') ∧
    (Env.secpPublic sk = Env.secpPublic sk' → debugSecp256k1 lib sk = debugSecp256k1 lib sk') ∧
    (Function.Injective lib → debugEd25519 lib sk = debugEd25519 lib sk' → Env.edPublic sk = Env.edPublic sk') ∧
    (Function.Injective lib → debugSecp256k1 lib sk = debugSecp256k1 lib sk' → Env.secpPublic sk = Env.secpPublic sk') := by
  refine ⟨rfl, fun h => ?_, fun h => ?_, fun hl h => ?_, fun hl h => ?_⟩
  · unfold debugEd25519; rw [h]
  · unfold debugSecp256k1; rw [h]
  · exact hl (List.append_cancel_left (List.append_cancel_right h))
  · have := List.append_cancel_left (List.append_cancel_right h)
    exact hl (List.append_cancel_left (List.append_cancel_right this))

omit [Env] in
/-- **C122** for RSA public keys: different keys print differently, and the text is the key: two hexadecimal digits for each byte. -/
theorem C122_rsa (pk pk' : Bytes) : (debugRsa pk = debugRsa pk' ↔ pk = pk') ∧ (debugRsa pk).length = 20 + 2 * pk.length + 3 ∧
    ∀ (i : Nat) b, pk[i]? = some b → ∃ x y, (debugRsa pk)[20 + 2 * i]? = some x ∧ (debugRsa pk)[20 + 2 * i + 1]? = some y ∧
      x ∈ "0123456789abcdef".toList ∧ y ∈ "0123456789abcdef".toList ∧ Spec.byteOf x y = b.toNat := by
  have hdig : ∀ n : Fin 16, hexDigit n.val ∈ "0123456789abcdef".toList := by decide +kernel
  have hlen : ∀ l : Bytes, (l.flatMap hexByte).length = 2 * l.length := by
    intro l
    induction l with
    | nil => rfl
    | cons x l ih => rw [List.flatMap_cons, List.length_append, ih, List.length_cons]; simp only [hexByte, List.length_cons, List.length_nil]; omega
  have hget : ∀ (l : Bytes) (i : Nat) b, l[i]? = some b → (l.flatMap hexByte)[2 * i]? = some (hexDigit (b.toNat / 16)) ∧
      (l.flatMap hexByte)[2 * i + 1]? = some (hexDigit (b.toNat % 16)) := by
    intro l
    induction l with
    | nil => intro i b h; cases h
    | cons x l ih =>
      intro i b h
      rcases i with _ | i
      · cases h; exact ⟨rfl, rfl⟩
      · obtain ⟨h1, h2⟩ := ih i b h
        exact ⟨h1, h2⟩
  refine ⟨⟨fun h => hex_inj (List.append_cancel_left (List.append_cancel_right h)), fun h => h ▸ rfl⟩, ?_, ?_⟩
  · unfold debugRsa
    rw [List.length_append, List.length_append, hlen]
    rfl
  · intro i b hb
    obtain ⟨h1, h2⟩ := hget pk i b hb
    have hlt := (List.getElem?_eq_some_iff.mp h2).1
    have hpre : "PublicKey { pkcs1: \"".toList.length = 20 := rfl
    have hb8 := b.toNat_lt
    refine ⟨_, _, ?_, ?_, hdig ⟨b.toNat / 16, by omega⟩, hdig ⟨b.toNat % 16, by omega⟩, byteOf_hexDigit ⟨b.toNat, hb8⟩⟩
    · unfold debugRsa
      rw [List.getElem?_append_left (by rw [List.length_append, hpre]; omega), List.getElem?_append_right (by rw [hpre]; omega), hpre,
        show 20 + 2 * i - 20 = 2 * i by omega, h1]
    · unfold debugRsa
      rw [List.getElem?_append_left (by rw [List.length_append, hpre]; omega), List.getElem?_append_right (by rw [hpre]; omega), hpre,
        show 20 + 2 * i + 1 - 20 = 2 * i + 1 by omega, h2]

end TG

namespace TG
open TG.Toy

/-- C122: two different secret keys with the same public key, and what an RSA key prints. -/
example : Env.edPublic (List.replicate 32 7) = Env.edPublic (List.replicate 33 7) ∧ Function.Injective (fun b : Bytes => b.flatMap hexByte) ∧
    debugRsa [0x30, 0x0a, 0xff] = "PublicKey { pkcs1: \"300aff\" }".toList := by
  refine ⟨by decide +kernel, fun _ _ h => hex_inj h, by decide +kernel⟩

end TG
