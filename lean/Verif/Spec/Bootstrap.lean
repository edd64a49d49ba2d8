/-
The certificates with which the nodes of the network start.
-/
import Verif.Model.Aqua
import Verif.Spec.Import

namespace TG
variable [Env]

/-- The trust that the key pair `kp` makes for the key `pk`. -/
def Spec.made (kp : KeyPair) (pk : PublicKey) (expiresAt issuedAt : UInt64) : Trust where
  issuedFor := pk
  expiresAt := .ofSecs expiresAt
  signature := Signature.fromBytes pk.keyFormat (match kp.sign (Trust.signatureBytes pk (.ofSecs expiresAt) (.ofSecs issuedAt)) with
    | .ok s => s.raw
    | _ => [])
  issuedAt := .ofSecs issuedAt

/-- One certificate for the example key and one for every node: `rt k` is the trust of the root in the key `k`, `lt k` that of the label key. -/
def Spec.startCerts (root label ex : PublicKey) (peers : List PublicKey) (rt lt : PublicKey → Trust) : List Certificate :=
  ⟨[rt root, rt ex]⟩ :: peers.map fun p => ⟨[rt root, rt label, lt p]⟩

/-- The same, made with the secret keys of the root and the label. -/
def Spec.bootCerts (root label ex : KeyPair) (peers : List PublicKey) (e i : UInt64) : List Certificate :=
  startCerts root.pub label.pub ex.pub peers (made root · e i) (made label · e i)

/-- The keys of the network: the root and the label key are the ones known to `isFluencePeer`; the keys have different roles. -/
structure Spec.Network (root label ex : PublicKey) (peers : List PublicKey) : Prop where
  rootId : root.toPeerId.toBase58 = Aqua.fluenceRootPeerId
  labelId : label.toPeerId.toBase58 = Aqua.labelPeerId
  exRoot : ex ≠ root
  exLabel : ex ≠ label
  peersRoot : root ∉ peers
  peersLabel : label ∉ peers

/-- The trusts in the certificates are genuine and expire at second `e`. -/
structure Spec.Genuine (root label ex : PublicKey) (peers : List PublicKey) (e : UInt64) (rt lt : PublicKey → Trust) : Prop where
  rootFor : ∀ k, (rt k).issuedFor = k
  labelFor : ∀ k, (lt k).issuedFor = k
  rootExpires : ∀ k, (rt k).expiresAt = .ofSecs e
  labelExpires : ∀ k, (lt k).expiresAt = .ofSecs e
  rootWhole : ∀ k, (rt k).WholeSeconds
  labelWhole : ∀ k, (lt k).WholeSeconds
  rootSigned : ∀ k, k = root ∨ k = label ∨ k = ex → ∀ now : UInt64, now ≤ e → (rt k).verify root (.ofSecs now) = .ok ()
  labelSigned : ∀ k ∈ peers, ∀ now : UInt64, now ≤ e → (lt k).verify label (.ofSecs now) = .ok ()

/-- Who trusts whom after the start. -/
def Spec.BootEdge (root label ex : PublicKey) (peers : List PublicKey) (rt lt : PublicKey → Trust) (k : PublicKey) (t : Trust) : Prop :=
  (k = root ∧ t = rt root) ∨ (k = root ∧ t = rt ex) ∨
  (k = root ∧ peers ≠ [] ∧ t = rt label) ∨ (k = label ∧ ∃ p ∈ peers, t = lt p)

/-- What the nodes answer after the start while the certificates live. -/
structure Spec.Running (root label ex : PublicKey) (peers : List PublicKey) (d : Db) (now : UInt64) : Prop where
  /-- Exactly the nodes of the list take themselves for Fluence peers. -/
  fluence : ∀ (host : PublicKey) (init creator : Str),
    ∃ b, (Aqua.isFluencePeer host.toPeerId.toBase58 init creator now d).1 = .ok (some b, none) ∧ (b = true ↔ host ∈ peers)
  rootWeight : ∃ s, TrustGraph.weight root (.ofSecs now) d = (.ok 32, s)
  exampleWeight : ∃ s, TrustGraph.weight ex (.ofSecs now) d = (.ok 16, s)
  labelWeight : peers ≠ [] → ∃ s, TrustGraph.weight label (.ofSecs now) d = (.ok 16, s)
  peerWeight : ∀ p ∈ peers, p ≠ ex → ∃ s, TrustGraph.weight p (.ofSecs now) d = (.ok 8, s)
  otherWeight : ∀ p, p ≠ root → p ≠ ex → p ≠ label → p ∉ peers → ∃ s, TrustGraph.weight p (.ofSecs now) d = (.ok 0, s)

/-- What they answer afterwards. -/
structure Spec.Over (root : PublicKey) (d : Db) (now : UInt64) : Prop where
  fluence : ∀ (host : PublicKey) (init creator : Str),
    (Aqua.isFluencePeer host.toPeerId.toBase58 init creator now d).1 = .ok (some false, none)
  rootWeight : ∃ s, TrustGraph.weight root (.ofSecs now) d = (.ok 32, s)
  otherWeight : ∀ p, p ≠ root → ∃ s, TrustGraph.weight p (.ofSecs now) d = (.ok 0, s)

end TG
