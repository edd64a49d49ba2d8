/-
A concrete case for C123: an environment with SHA-256, the keys and the signatures of the standards, in which every secret key belongs to the example key
and some more signatures are accepted.
-/
import Verif.Props.Shipped
import Verif.Spec.Toy

namespace TG.ShippedDemo
open TG.Toy

/-- The environment. -/
@[reducible] def env : LawfulEnv where
  wasm := true
  debug := false
  sha256 := Sha2.sha256
  sha256_length := Sha2.sha256_length
  edValid := Ed25519Spec.valid
  edVerify pk msg sig := Ed25519Spec.verify pk msg sig || sig == pk ++ msg
  edPublic _ := Shipped.exampleRow.keyBytes
  edPublic_length _ := Shipped.exampleRow.keyBytes_length
  edPublic_valid _ := Shipped.example_good.2.2.1
  edSign _ msg := Shipped.exampleRow.keyBytes ++ msg
  secpValid _ := true
  secpParseDer sig := sig.head? == some 0x30
  secpVerify pk h sig := sig == 0x30 :: (pk ++ h)
  secpValidSk _ := true
  secpPublic sk := 0x02 :: fix 32 sk
  secpPublic_length sk := by simp [fix_length]
  secpPublic_valid _ := rfl
  secpSign sk h := 0x30 :: ((0x02 :: fix 32 sk) ++ h)
  rsaVerify pk msg sig := sig == pk ++ msg
  rsaPublic kp := kp
  rsaSign kp msg := some (kp ++ msg)
  pbDecode := pbDecode
  scan _ l := l
  scan_perm _ _ := List.Perm.refl _
  ed_sign sk msg := by simp
  secp_sign_der _ _ := rfl
  secp_sign _ _ := by simp
  rsa_sign kp msg s h := by cases h; simp
  pb_roundtrip := (Toy.env true false).pb_roundtrip

attribute [-instance] Toy.serviceEnv
attribute [local instance] env

theorem conforms : Spec.Conforms where
  sha256 _ := rfl
  valid _ h := h
  verify pk msg sig h := by
    show (Ed25519Spec.verify pk msg sig || sig == pk ++ msg) = true
    rw [h]; rfl

/-- A node run by its creator. -/
def node (now : UInt64) : Node := ⟨"node".toList, "owner".toList, "owner".toList, now⟩

/-- C123: a node that is started on 2023-11-14. -/
theorem started : ∃ (root label ex : PublicKey) (peers : List PublicKey) (d : Db),
    OnStart.run (node 1700000000) (Shipped.certs.zip (List.replicate 12 1700000000)) .empty = (.ok [.true], d) ∧
    Spec.Running root label ex peers d 1700000001 ∧ Spec.Over root d 1737828468 := by
  obtain ⟨root, label, ex, peers, d, -, -, -, -, h1, h2, h3⟩ := C123_shipped_certificates rfl conforms (n := node 1700000000) rfl
    (List.replicate 12 1700000000) rfl (fun t ht => by rw [List.eq_of_mem_replicate ht]; decide)
  exact ⟨root, label, ex, peers, d, h1, h2 _ (by decide), h3 _ (by decide) (by decide)⟩

/-- C123: a node that is started on the day after the certificates have expired. -/
example : ∃ root : PublicKey,
    OnStart.run (node 1737914868) (Shipped.certs.zip (List.replicate 12 1737914868)) .empty =
      (.ok (List.replicate 12 (.error (some (.tgError (.trustVerificationError .expired)))) ++ [.true]), Db.empty.addRoot root 11) := by
  obtain ⟨root, -, h⟩ := C123_shipped_too_late rfl conforms (n := node 1737914868) rfl
    (List.replicate 12 1737914868) rfl (fun t ht => by rw [List.eq_of_mem_replicate ht]; decide)
  exact ⟨root, h⟩

/-- The clock of the node while the example runs. -/
def clock (i : Nat) : UInt64 := 1700000100 + UInt64.ofNat i

theorem clock_ok : Spec.Clock clock where
  mono := by decide
  wait := by decide
  wait' := by decide
  far := by decide
  far63 := by decide

/-- The node as the example sees it. -/
def relay (t : UInt64) : Node := ⟨"node".toList, "owner".toList, Shipped.exampleTrust.issuedFor, t⟩

set_option maxRecDepth 100000 in
/-- C123: the example on the first node, the label key and the second node. -/
example : ∃ (A B C : PublicKey) (d : Db),
    OnStart.run (node 1700000000) (Shipped.certs.zip (List.replicate 12 1700000000)) .empty = (.ok [.true], d) ∧
    (Example.main relay (fun b => some (Shipped.exampleRow.keyBytes ++ b)) [] Shipped.exampleTrust.issuedFor A.toPeerId.toBase58 B.toPeerId.toBase58
        C.toPeerId.toBase58 () clock d).1
      = .ok (Spec.documented A.toPeerId.toBase58 B.toPeerId.toBase58 C.toPeerId.toBase58 ()) := by
  obtain ⟨sk, h1, h2, h3⟩ := Shipped.example_secret
  have g := Shipped.nodes_good
  unfold Shipped.nodeRows Shipped.nodeTrusts at g
  rcases g with _ | ⟨gA, _ | ⟨gC, -⟩⟩
  refine ⟨Shipped.Row.pub conforms _ gA.2.2.1, Shipped.labelKey conforms, Shipped.Row.pub conforms _ gC.2.2.1, ?_⟩
  refine C123_shipped_example rfl conforms h1 h2 h3.symm (n := node 1700000000) rfl (List.replicate 12 1700000000) rfl
    (fun t ht => by rw [List.eq_of_mem_replicate ht]; decide) () (fun _ => rfl) (fun _ => rfl) (fun b s hs => by cases hs; rfl) [] clock_ok (by decide)
    ?_ ?_ ?_ ?_
  · intro x hx
    simp only [List.mem_cons, List.not_mem_nil, or_false] at hx
    rcases hx with rfl | rfl | rfl
    · rw [Shipped.toBase58_pub, gA.1]; decide +kernel
    · rw [(Shipped.network conforms).labelId]; decide +kernel
    · rw [Shipped.toBase58_pub, gC.1]; decide +kernel
  · intro h; exact absurd (Shipped.pub_inj conforms h) (by decide +kernel)
  · intro h; exact absurd (Shipped.pub_inj conforms h) (by decide +kernel)
  · intro h; exact absurd (Shipped.pub_inj conforms h) (by decide +kernel)

end TG.ShippedDemo
