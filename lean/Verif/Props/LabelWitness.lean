/-
Concrete cases for C65: a labelled host and one without label.
-/
import Verif.Props.ServiceFlow

namespace TG.LabelDemo
open TG.Toy TG.Service

/-- The 32 bytes in an Ed25519 peer id. -/
def bytesOf (p : Str) : Bytes :=
  match PeerId.fromStr p with
  | some id => id.digest.drop 4
  | none => []

/-- The key pair with this peer id (in the toy environment secret and public bytes agree). -/
def pairOf (p : Str) : KeyPair := .ed25519 (fix 32 (bytesOf p)) (fix_length 32 _)

def root : KeyPair := pairOf Aqua.fluenceRootPeerId
def label : KeyPair := pairOf Aqua.labelPeerId

set_option maxRecDepth 100000 in
theorem peer_ids : root.pub.toPeerId.toBase58 = Aqua.fluenceRootPeerId ∧ label.pub.toPeerId.toBase58 = Aqua.labelPeerId := by
  decide +kernel

/-- Trust by `k` for `p` until 1000. -/
def trustFor (k : KeyPair) (p : PublicKey) : Trust :=
  Trust.new p (s 1000) (s 1) (signature k (Trust.signatureBytes p (s 1000) (s 1)))

/-- The Fluence root trusts the label key, which trusts key 1, which trusts key 2. -/
def ops : List Op :=
  [.setRoot root.pub 10, .addTrust (trustFor root root.pub) root.pub (s 1),
   .addTrust (trustFor root label.pub) root.pub (s 1), .addTrust (trustFor label (pk 1)) label.pub (s 1),
   .addTrust (trustFor (kp 1) (pk 2)) (pk 1) (s 1)]

def db : Db := Op.runAll ops ⟨[], [], []⟩

theorem reachable : Reachable db := Reachable.init.runAll _

set_option maxRecDepth 100000 in
theorem labelled : (Aqua.isFluencePeer (pk 1).toPeerId.toBase58 [] [] 10 db).1 = .ok (some true, none) := by decide +kernel

set_option maxRecDepth 100000 in
theorem not_labelled : (Aqua.isFluencePeer (pk 2).toPeerId.toBase58 [] [] 10 db).1 = .ok (some false, none) := by decide +kernel

/-- C65: key 1 is labelled, key 2, one step further, is not. -/
example : Spec.Labelled (db.snapshot (s 10)) root.pub label.pub (pk 1) ∧ ¬ Spec.Labelled (db.snapshot (s 10)) root.pub label.pub (pk 2) := by
  constructor
  · rcases C65_is_fluence_peer rfl peer_ids.1 peer_ids.2 reachable [] [] 10 (host := pk 1) with h | ⟨b, h, hb⟩
    · rw [labelled] at h; cases h
    · rw [labelled] at h; cases h; exact hb.mp rfl
  · intro hl
    rcases C65_is_fluence_peer rfl peer_ids.1 peer_ids.2 reachable [] [] 10 (host := pk 2) with h | ⟨b, h, hb⟩
    · rw [not_labelled] at h; cases h
    · rw [not_labelled] at h; cases h; exact absurd (hb.mpr hl) (by simp)

end TG.LabelDemo
