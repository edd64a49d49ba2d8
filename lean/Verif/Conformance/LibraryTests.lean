/-
The tests of the library crates (/repo/trust-graph/src/{trust,revoke,certificate}.rs, /repo/keypair/src/{ed25519,secp256k1,public_key,signature}.rs), run on
the model in the toy environment.

These are tests of the model, not proofs of properties.  Generated key pairs are numbered keys, `current_time()` is a constant.  Left out: the tests of
rsa.rs (key files of the RSA library).
-/
import Verif.Model.Certificate
import Verif.Model.Libp2p
import Verif.Model.SecretBytes
import Verif.Spec.Toy

namespace TG.Conformance.LibraryTests
open TG TG.Toy

/-- A test: `none` when an assertion or an `unwrap` fails. -/
abbrev T (α : Type) := Option α

def assert (b : Bool) : T Unit := if b then pure () else failure

def unwrap {ε α : Type} : Outcome ε α → T α
  | .ok a => some a
  | _ => none

def isOk {ε α : Type} : Outcome ε α → Bool
  | .ok _ => true
  | _ => false

def isErr {ε α : Type} : Outcome ε α → Bool
  | .err _ => true
  | _ => false

abbrev Passes {α : Type} (t : T α) : Prop := t.isSome = true

def now : Nat := 1700000000
def year : Nat := 31557600

/-- `generate_root_cert` (certificate.rs:421-437), with the key pairs 1 and 2. -/
def generateRootCert : T Certificate := unwrap (Certificate.issueRoot (kp 1) (pk 2) (s (now + year)) (s now))

/-- The certificate of most tests: key 2 adds key 3. -/
def issued (expires issuedAt : Nat) : T Certificate := do
  let cert ← generateRootCert
  unwrap (Certificate.issue (kp 2) (pk 3) cert (s expires) (s issuedAt) (s now))

def holders (c : Certificate) : List PublicKey := c.chain.map (·.issuedFor)

set_option maxRecDepth 100000

/-- trust.rs:274-289 -/
example : Passes (do
    let trust ← unwrap (Trust.create (kp 1) (pk 2) (s 1000) (s 10))
    assert (isOk (trust.verify (pk 1) (s 100)))) := by decide +kernel

/-- trust.rs:291-310; as in the source, the third argument of `Trust::new` is the issue time -/
example : Passes (do
    let trust ← unwrap (Trust.create (kp 1) (pk 2) (s 1000) (s 10))
    let corrupted := Trust.new trust.issuedFor trust.expiresAt (s 1234) trust.signature
    assert (isErr (corrupted.verify (pk 1) (s 1000)))) := by decide +kernel

/-- trust.rs:312-326 -/
example : Passes (do
    let trust ← unwrap (Trust.create (kp 1) (pk 2) (s 1000) (s 10))
    let decoded ← unwrap (Trust.decode trust.encode)
    assert (decide (trust = decoded))) := by decide +kernel

/-- revoke.rs:98-108 -/
example : Passes (do
    let revoke ← unwrap (Revocation.create (kp 1) (pk 2) (s 100))
    assert (isOk revoke.verify)) := by decide +kernel

/-- revoke.rs:110-128 -/
example : Passes (do
    let revoke ← unwrap (Revocation.create (kp 1) (pk 2) (s 100))
    let corrupted := Revocation.new (pk 1) (pk 2) (s 95) revoke.signature
    assert (!isOk corrupted.verify)) := by decide +kernel

/-- certificate.rs:359-384 -/
example : Passes (do
    let c ← issued (now + 1) now
    let after ← unwrap (Certificate.fromStr c.toText)
    assert (decide (c = after))) := by decide +kernel

/-- certificate.rs:386-411 -/
example : Passes (do
    let c ← issued (now + 1) now
    let after ← unwrap (Certificate.decode c.encode)
    assert (decide (c = after))) := by decide +kernel

/-- certificate.rs:413-419 -/
example : Passes (assert (isErr (Certificate.verify ⟨[]⟩ [] (s now)))) := by decide +kernel

/-- certificate.rs:439-472 -/
example : Passes (do
    let c ← issued (now + year) now
    assert (decide (holders c = [pk 1, pk 2, pk 3]))
    assert (isOk (c.verify [pk 1] (s now)))) := by decide +kernel

/-- certificate.rs:474-493 -/
example : Passes (do
    let c ← issued (now - 1) (now - 60)
    assert (isErr (c.verify [pk 1] (s now)))) := by decide +kernel

/-- certificate.rs:495-531 -/
example : Passes (do
    let c ← issued (now + 1) now
    let c ← unwrap (Certificate.issue (kp 3) (pk 4) c (s (now + 1)) (s now) (s now))
    assert (decide (holders c = [pk 1, pk 2, pk 3, pk 4]))
    assert (isOk (c.verify [pk 1] (s now)))) := by decide +kernel

/-- certificate.rs:533-568 -/
example : Passes (do
    let c ← issued (now + 1) now
    let c ← unwrap (Certificate.issue (kp 2) (pk 4) c (s (now + 1)) (s now) (s now))
    assert (decide (holders c = [pk 1, pk 2, pk 4]))
    assert (isOk (c.verify [pk 1] (s now)))) := by decide +kernel

/-- certificate.rs:570-585 -/
example : Passes (do
    let c ← generateRootCert
    assert (isErr (Certificate.issue (kp 9) (pk 9) c (s (now + 1)) (s now) (s now)))) := by decide +kernel

/-- certificate.rs:587-595 -/
example : Passes (do
    let c ← generateRootCert
    assert (isErr (c.verify [pk 2] (s now)))
    assert (isErr (c.verify [] (s now)))) := by decide +kernel

/-- certificate.rs:597-609 -/
example : Passes (do
    let c ← generateRootCert
    assert (isErr (Certificate.verify ⟨c.chain.tail⟩ [pk 1] (s now)))) := by decide +kernel

/-- certificate.rs:611-622 -/
example : Passes (do
    let c ← generateRootCert
    assert (decide (holders c = [pk 1, pk 2]))
    assert (isOk (c.verify [pk 1] (s now)))) := by decide +kernel

/-- ed25519.rs:187-196 -/
example : Passes (do
    let enc ← unwrap (kp 1).toVec
    let (r, enc) := SecretBytes.edKeypair enc
    let kp2 ← unwrap r
    assert (decide (kp2 = kp 1) && enc.all (· == 0))) := by decide +kernel

/-- ed25519.rs:198-207 -/
example : Passes (do
    let l ← unwrap (kp 1).toLibp2p
    let kp2 ← unwrap (KeyPair.ofLibp2p l)
    assert (decide (kp2.pub = (kp 1).pub) && decide (kp2.secret = (kp 1).secret))) := by decide +kernel

/-- ed25519.rs:209-218 -/
example : Passes (do
    let sk ← unwrap (kp 1).secret
    let (r, sk) := SecretBytes.edSecret sk
    let kp2 ← unwrap r
    assert (decide (kp2 = kp 1) && decide (sk = List.replicate 32 0))) := by decide +kernel

/-- A text as bytes; the texts here are ASCII. -/
def bytes (t : String) : Bytes := t.toList.map (fun c => UInt8.ofNat c.toNat)

/-- ed25519.rs:220-235; bytes 3 to 5 of the signature are overwritten -/
example : Passes (do
    let sig ← unwrap ((kp 1).sign (bytes "hello world"))
    assert (isOk ((pk 1).verify (bytes "hello world") sig))
    let invalid : Signature := .ed25519 (sig.raw.take 3 ++ [10, 23, 42] ++ sig.raw.drop 6)
    assert (isErr ((pk 1).verify (bytes "hello world") invalid))
    assert (isErr ((pk 1).verify (bytes "h3ll0 w0rld") sig))) := by decide +kernel

/-- secp256k1.rs:239-247 -/
example : Passes (do
    let sk ← unwrap (skp 1).secret
    let (r, sk) := SecretBytes.secpSecret sk
    let kp2 ← unwrap r
    assert (decide (kp2.secret = (skp 1).secret))
    assert (decide (sk = List.replicate 32 0))) := by decide +kernel

/-- secp256k1.rs:249-258 -/
example : Passes (do
    let l ← unwrap (skp 1).toLibp2p
    let kp2 ← unwrap (KeyPair.ofLibp2p l)
    assert (decide (kp2.pub = (skp 1).pub) && decide (kp2.secret = (skp 1).secret))) := by decide +kernel

/-- public_key.rs:211-217 -/
example : Passes (do
    let k ← unwrap (PublicKey.decode (pk 1).encode)
    assert (decide (k = pk 1))) := by decide +kernel

/-- public_key.rs:219-225 -/
example : Passes (do
    let k ← unwrap (PublicKey.decode (skp 1).pub.encode)
    assert (decide (k = (skp 1).pub))) := by decide +kernel

/-- public_key.rs:227-236 -/
example : Passes (do
    let k ← unwrap (PublicKey.ofPeerId (skp 1).pub.toPeerId)
    assert (decide (k = (skp 1).pub))) := by decide +kernel

/-- signature.rs:120-139; on wasm32, so without the RSA lines -/
example : Passes (do
    let bs : Bytes := (List.range 10).map UInt8.ofNat
    let a ← unwrap (Signature.decode (Signature.ed25519 bs).encode)
    assert (decide (a = .ed25519 bs))
    let b ← unwrap (Signature.decode (Signature.secp256k1 bs).encode)
    assert (decide (b = .secp256k1 bs))) := by decide +kernel

end TG.Conformance.LibraryTests
