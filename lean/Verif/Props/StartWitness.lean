/-
Concrete cases for C83–C85: a network with two nodes, in the toy environment.
-/
import Verif.Props.AquaWitness
import Verif.Props.Bootstrap
import Verif.Props.LabelWitness

namespace TG.StartDemo
open TG.Toy TG.Service TG.AquaDemo

set_option maxRecDepth 100000 in
/-- C84: the keys of the network.  The first node is also the example. -/
theorem network : Spec.Network LabelDemo.root.pub LabelDemo.label.pub (pk 1) [pk 1, pk 2] := by
  refine ⟨LabelDemo.peer_ids.1, LabelDemo.peer_ids.2, ?_, ?_, ?_, ?_⟩ <;> decide +kernel

/-- What the administrator makes at time 100. -/
def certs : List CertDto :=
  (Spec.bootCerts LabelDemo.root LabelDemo.label (kp 1) [pk 1, pk 2] 63072100 100).map Dto.ofCertificate

/-- C84: the hypotheses hold, and so does the conclusion: a node that starts at time 200. -/
theorem started : ∃ d, OnStart.run (node 150) (certs.zip [200, 200, 201]) .empty = (.ok [.true], d) ∧
    (∀ now : UInt64, now.toNat < 63072100 → Spec.Running LabelDemo.root.pub LabelDemo.label.pub (pk 1) [pk 1, pk 2] d now) ∧
    ∀ now : UInt64, 63072100 ≤ now.toNat → now.toNat < 2 ^ 63 → Spec.Over LabelDemo.root.pub d now :=
  C84_bootstrap rfl network (node 100) Demo.db (by decide) (congrArg Prod.fst (admin_certificates rfl _ _ _ _ _ _)) (n := node 150) rfl
    [200, 200, 201] rfl (by decide) (by decide)

/-- C84: key 2 has weight 8 at time 1000, and a stranger is no Fluence peer. -/
example : ∃ d, OnStart.run (node 150) (certs.zip [200, 200, 201]) .empty = (.ok [.true], d) ∧
    (∃ s, TrustGraph.weight (pk 2) (.ofSecs 1000) d = (.ok 8, s)) ∧
    (Aqua.isFluencePeer (pk 3).toPeerId.toBase58 [] [] 1000 d).1 = .ok (some false, none) := by
  obtain ⟨d, h1, h2, -⟩ := started
  have h := h2 1000 (by decide)
  refine ⟨d, h1, h.peerWeight _ (by simp) (by decide), ?_⟩
  obtain ⟨b, hb, hb'⟩ := h.fluence (pk 3) [] []
  cases b
  · exact hb
  · exact absurd (hb'.mp rfl) (by decide)

/-- C83: these certificates are a bundle for the empty database with the root. -/
example : Spec.Bundle (Db.empty.addRoot LabelDemo.root.pub 11)
    (((Spec.bootCerts LabelDemo.root LabelDemo.label (kp 1) [pk 1, pk 2] 63072100 100).zip [200, 200, 201]).map Spec.atTime) :=
  boot_bundle (e := 63072100) (i := 100) rfl network (by decide) _ (by
    intro p hp
    have := List.of_mem_zip hp
    refine ⟨this.1, ?_⟩
    have h2 := this.2
    simp only [List.mem_cons, List.not_mem_nil, or_false] at h2
    rcases h2 with h2 | h2 | h2 <;> rw [h2] <;> decide)

/-- C83: started after the certificates have expired. -/
example : OnStart.run (node 150) (certs.zip [63072101, 63072101, 63072102]) .empty =
    (.ok [.error (some (.tgError (.trustVerificationError .expired))), .error (some (.tgError (.trustVerificationError .expired))),
      .error (some (.tgError (.trustVerificationError .expired))), .true], Db.empty.addRoot LabelDemo.root.pub 11) := by
  have h := C83_on_start_expired (n := node 150) rfl LabelDemo.peer_ids.1 (show LabelDemo.root.pub.NotRsa from trivial)
    (db := .empty) (setRoot_noFaults (db := .empty) rfl _ 5)
    ((Spec.bootCerts LabelDemo.root LabelDemo.label (kp 1) [pk 1, pk 2] 63072100 100).zip [63072101, 63072101, 63072102]) ?_ ?_
  · exact h
  · intro p hp t ht
    refine ⟨C60_wasm_keys rfl _, ?_⟩
    have hm := (List.of_mem_zip hp).1
    unfold Spec.bootCerts Spec.startCerts at hm
    rcases List.mem_cons.mp hm with e | hm
    · rw [e] at ht
      simp only [List.mem_cons, List.not_mem_nil, or_false] at ht
      rcases ht with rfl | rfl <;> exact ⟨rfl, rfl⟩
    · obtain ⟨q, -, e⟩ := List.mem_map.mp hm
      rw [← e] at ht
      simp only [List.mem_cons, List.not_mem_nil, or_false] at ht
      rcases ht with rfl | rfl | rfl <;> exact ⟨rfl, rfl⟩
  · intro p hp
    have hm := List.of_mem_zip hp
    have h2 : (63072100 : UInt64) < p.2 := by
      have h2 := hm.2
      simp only [List.mem_cons, List.not_mem_nil, or_false] at h2
      rcases h2 with h2 | h2 | h2 <;> rw [h2] <;> decide
    have hm := hm.1
    unfold Spec.bootCerts Spec.startCerts at hm
    rcases List.mem_cons.mp hm with e | hm
    · exact ⟨_, by rw [e]; rfl, h2⟩
    · obtain ⟨q, -, e⟩ := List.mem_map.mp hm
      exact ⟨_, by rw [← e]; rfl, h2⟩

/-- C85: a restart on a database in use, of which 8 relations and the root are kept or replaced by newer ones. -/
def restarted : Outcome Empty (List Returned) × Db :=
  OnStart.run (node 150) [(Dto.ofCertificate ⟨[trust 1 1 1000 1, trust 1 3 1000 5]⟩, 150)] Demo.db

set_option maxRecDepth 100000 in
example : restarted.1 = .ok [.true] ∧ restarted.2.roots.length = 2 ∧ restarted.2.relations.length = 8 ∧
    Sqlite.toRow (.revocation (revocation 4 5 1)) ∈ restarted.2.relations ∧
    Sqlite.toRow (.auth ⟨trust 1 3 1000 5, pk 1⟩) ∈ restarted.2.relations ∧
    Sqlite.toRow (.auth ⟨trust 1 3 1000 1, pk 1⟩) ∉ restarted.2.relations := by decide +kernel

/-- C83: started by somebody else. -/
def foreign : Outcome Empty (List Returned) × Db :=
  OnStart.run ⟨ServiceDemo.peer 50, ServiceDemo.peer 1, ServiceDemo.peer 2, 150⟩ [(Dto.ofCertificate ⟨[trust 1 1 1000 1, trust 1 3 1000 5]⟩, 150)] Demo.db

set_option maxRecDepth 100000 in
example : foreign.1 = .ok [.error (some .notOwner), .true] ∧ foreign.2.roots.length = 1 := by decide +kernel

end TG.StartDemo
