/-
Concrete cases for C92 and C93: keys 2 and 1 run the example with the nodes 6, 7 and 8.
-/
import Verif.Props.ExampleBoot
import Verif.Props.ExampleWitness
import Verif.Props.StartWitness

namespace TG.ExampleDemo
open TG.Toy TG.Service TG.AquaDemo

set_option maxRecDepth 100000 in
theorem run_facts : (∀ k ∈ [pk 6, pk 7, pk 8], (∀ row ∈ Demo.db.relations, row.issuedFor ≠ keyText k) ∧ pk 1 ≠ k ∧ pk 2 ≠ k) ∧
    Demo.db.certWeight cert = 512 ∧ Demo.db.relations.length < 100 ∧ pk 6 ≠ pk 7 ∧ pk 6 ≠ pk 8 ∧ pk 7 ≠ pk 8 := by decide +kernel

/-- C92: the hypothesis about the database. -/
theorem ready (t : UInt64) (ht : t < 1000) : Spec.Ready Demo.db (pk 2) [pk 6, pk 7, pk 8] t cert where
  reachable := Demo.reachable
  noFaults := Demo.tables.2.2
  small := by have := run_facts.2.2.1; omega
  extensible x hx := by
    obtain ⟨h, n1, n2⟩ := run_facts.1 x hx
    have hlive := cert_live (.ofSecs t) ht
    have e := extensible.admissible
    refine ⟨⟨⟨e.linked.long, fun a ha => ⟨(e.linked.root a ha).1, (e.linked.root a ha).2.1, hlive a (List.mem_of_getElem? ha)⟩,
      fun i a b ha hb => ⟨(e.linked.link i a b ha hb).1, hlive b (List.mem_of_getElem? hb)⟩, e.linked.target⟩, e.noRevisit, e.unrevoked⟩, ?_,
      extensible.unrevoked, fun a _ _ ⟨r, hr, _, hp⟩ => Demo.not_stored h hr hp⟩
    intro a ha
    rcases List.mem_cons.mp ha with rfl | ha
    · exact n1
    rcases List.mem_cons.mp ha with rfl | ha
    · exact n2
    cases ha
  worth := by rw [run_facts.2.1]; decide
  old x hx q hq _ h := absurd h (Demo.not_stored (run_facts.1 x hx).1 hq)
  notClient x hx := (run_facts.1 x hx).2.2

/-- A clock: it stands except where the program waits. -/
def clock (i : Nat) : UInt64 := if i ≤ 6 then 10 else if i ≤ 16 then 11 else 12

set_option maxRecDepth 100000 in
theorem clock_ok : Spec.Clock clock where
  mono i hi := by
    have : ∀ i < 21, clock i ≤ clock (i + 1) := by decide +kernel
    exact this i hi
  wait := by decide
  wait' := by decide
  far := by decide
  far63 := by decide

/-- C92: all hypotheses. -/
example : (Example.main relay (sign 2) [] (kp 2).pub.toPeerId.toBase58 (pk 6).toPeerId.toBase58 (pk 7).toPeerId.toBase58 (pk 8).toPeerId.toBase58 5 clock
    Demo.db).1 = .ok (Spec.documented (pk 6).toPeerId.toBase58 (pk 7).toPeerId.toBase58 (pk 8).toPeerId.toBase58 5) :=
  C92_example_output rfl 5 (fun _ => rfl) (fun _ => rfl) (signs 2) clock_ok (ready _ (by decide)) (cert_live _ (by decide))
    run_facts.2.2.2.1 run_facts.2.2.2.2.1 run_facts.2.2.2.2.2

set_option maxRecDepth 100000 in
/-- C92: without waiting, the trusts and the last revocation have no effect (F21), although the program prints that they are added and revoked. -/
theorem hasty_facts :
    (Example.main relay (sign 2) [] (kp 2).pub.toPeerId.toBase58 (pk 6).toPeerId.toBase58 (pk 7).toPeerId.toBase58 (pk 8).toPeerId.toBase58 5 (fun _ => 10)
      Demo.db).1 = .ok [.failed (pk 6).toPeerId.toBase58 (some .noCerts), .failed (pk 7).toPeerId.toBase58 (some .noCerts),
        .failed (pk 8).toPeerId.toBase58 (some .noCerts), .added (pk 7).toPeerId.toBase58, .added (pk 8).toPeerId.toBase58,
        .failed (pk 6).toPeerId.toBase58 (some .noCerts), .failed (pk 7).toPeerId.toBase58 (some .noCerts),
        .failed (pk 8).toPeerId.toBase58 (some .noCerts), .revoked (pk 7).toPeerId.toBase58,
        .failed (pk 6).toPeerId.toBase58 (some .noCerts), .failed (pk 7).toPeerId.toBase58 (some .noCerts),
        .failed (pk 8).toPeerId.toBase58 (some .noCerts)] := by decide +kernel

/-- A node with this time, in a script started by key 1. -/
def relay1 (now : UInt64) : Node := ⟨ServiceDemo.peer 50, ServiceDemo.peer 1, ServiceDemo.peer 1, now⟩

/-- A clock: the program starts at time 1000. -/
def clock1 (i : Nat) : UInt64 := if i ≤ 6 then 1000 else if i ≤ 16 then 1001 else 1002

set_option maxRecDepth 100000 in
theorem clock1_ok : Spec.Clock clock1 where
  mono i hi := by
    have : ∀ i < 21, clock1 i ≤ clock1 (i + 1) := by decide +kernel
    exact this i hi
  wait := by decide
  wait' := by decide
  far := by decide
  far63 := by decide

set_option maxRecDepth 100000 in
theorem others : ∀ x ∈ [pk 2, pk 7, pk 8], x ≠ LabelDemo.root.pub ∧ x ≠ (kp 1).pub := by decide +kernel

set_option maxRecDepth 100000 in
theorem distinct : pk 2 ≠ pk 7 ∧ pk 2 ≠ pk 8 ∧ pk 7 ≠ pk 8 := by decide +kernel

/-- C93: all hypotheses; one of the nodes is a peer of the network. -/
example : ∃ d, OnStart.run (node 150) (StartDemo.certs.zip [200, 200, 201]) .empty = (.ok [.true], d) ∧
    (Example.main relay1 (sign 1) [] (kp 1).pub.toPeerId.toBase58 (pk 2).toPeerId.toBase58 (pk 7).toPeerId.toBase58 (pk 8).toPeerId.toBase58 5 clock1 d).1
      = .ok (Spec.documented (pk 2).toPeerId.toBase58 (pk 7).toPeerId.toBase58 (pk 8).toPeerId.toBase58 5) :=
  C93_example_after_bootstrap rfl StartDemo.network (node 100) Demo.db (by decide) (congrArg Prod.fst (admin_certificates rfl _ _ _ _ _ _))
    (n := node 150) rfl [200, 200, 201] rfl (by decide) (by decide) 5 (fun _ => rfl) (fun _ => rfl) (signs 1) [] clock1_ok (by decide) others
    distinct.1 distinct.2.1 distinct.2.2

end TG.ExampleDemo
