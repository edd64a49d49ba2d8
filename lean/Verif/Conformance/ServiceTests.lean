/-
The tests of /repo/service/src/tests.rs, run on the model in the toy environment.

These are tests of the model against the expectations of the authors of the code, not proofs of properties: they check that the model was read off the code
rightly.  Every test of the file is here, in order, with its assertions.  Generated key pairs are numbered keys, `current_time()` is a constant.  Two tests (`test_add_one_trust_to_cert_last`, `test_expired_trust`) do not clear the database file first; here every test starts from an empty database.
-/
import Verif.Model.Service
import Verif.Spec.Toy

namespace TG.Conformance.ServiceTests
open TG TG.Toy TG.Service

/-- A test: calls on the service, `none` when an assertion fails. -/
abbrev T (α : Type) := StateT Db Option α

def assert (b : Bool) : T Unit := if b then pure () else failure

/-- A call of the service, as `ServiceInterface` makes it; a trap makes the test fail. -/
def call {α : Type} (x : M Db Empty (Res α)) : T (Res α) := fun db =>
  match x db with
  | (.ok r, db') => some (r, db')
  | _ => none

/-- `assert!(result.success)`, then the payload. -/
def checked {α : Type} (x : M Db Empty (Res α)) : T α := do
  let r ← call x
  assert r.success
  pure r.payload

def id' (n : Nat) : Str := (pk n).toPeerId.toBase58

def now : Nat := 1700000000

/-- `CallParameters::default()` -/
def cp0 : CallParams := ⟨[], [], [], []⟩

/-- `get_correct_timestamp_cp_with_host_id` (tests.rs:65-83) -/
def cpHost (n : Nat) (host : Str) : CallParams :=
  ⟨[], [], host, List.replicate n [] ++ [[⟨host, trustedTimestamp.1, trustedTimestamp.2⟩]]⟩

/-- `get_correct_timestamp_cp` (tests.rs:61-63) -/
def cp (n : Nat) : CallParams := cpHost n "some_host_id".toList

/-- `set_root_peer_id` (tests.rs:85-88) -/
def setRootPeerId (n : Nat) (maxChainLen : UInt32) : T Unit := checked (setRoot cp0 (id' n) maxChainLen)

/-- `issue_trust` (tests.rs:108-129) -/
def issueTrust (issuer issuedFor issuedAt expiresAt : Nat) : T TrustDto := do
  let bytes ← checked (TG.Service.getTrustBytes cp0 (id' issuedFor) (.ofNat expiresAt) (.ofNat issuedAt))
  checked (TG.Service.issueTrust cp0 (id' issuedFor) (.ofNat expiresAt) (.ofNat issuedAt) (signature (kp issuer) bytes).raw)

/-- `add_trust_checked` (tests.rs:172-185) -/
def addTrustChecked (t : TrustDto) (issuer curTime : Nat) : T Nat := checked (TG.Service.addTrust (cp 2) t (id' issuer) (.ofNat curTime))

/-- `add_trust` (tests.rs:146-170) -/
def addTrust (issuer issuedFor issuedAt expiresAt : Nat) : T TrustDto := do
  let t ← issueTrust issuer issuedFor issuedAt expiresAt
  let _ ← addTrustChecked t issuer issuedAt
  pure t

/-- `add_root_with_trust` (tests.rs:90-106) -/
def addRootWithTrust (issuer issuedAt expiresAt : Nat) (maxChainLen : UInt32) : T TrustDto := do
  setRootPeerId issuer maxChainLen
  addTrust issuer issuer issuedAt expiresAt

/-- `add_trusts` (tests.rs:187-191) -/
def addTrusts (ts : List (Nat × TrustDto)) (curTime : Nat) : T Unit :=
  match ts with
  | [] => pure ()
  | (issuer, t) :: ts => do
    let _ ← addTrustChecked t issuer curTime
    addTrusts ts curTime

/-- `revoke` (tests.rs:193-220) -/
def revoke (issuer revoked revokedAt : Nat) : T RevocationDto := do
  let bytes ← checked (getRevocationBytes cp0 (id' revoked) (.ofNat revokedAt))
  let r ← checked (issueRevocation cp0 (id' issuer) (id' revoked) (.ofNat revokedAt) (signature (kp issuer) bytes).raw)
  checked (TG.Service.revoke (cp 1) r (.ofNat revokedAt))
  pure r

/-- `generate_trust_chain_with_len` (tests.rs:222-289), with the keys 0, 1, …; the issuer of each trust, and the trust. -/
def chainFrom (prev : Nat) : List Nat → T (List (Nat × TrustDto))
  | [] => pure []
  | k :: ks => do
    let t ← issueTrust prev k now (now + 60)
    let rest ← chainFrom k ks
    pure ((prev, t) :: rest)

def generateTrustChain (len : Nat) : T (List (Nat × TrustDto)) := do
  let root ← issueTrust 0 0 now (now + 60)
  let rest ← chainFrom 0 ((List.range len).drop 1)
  pure ((0, root) :: rest)

/-- `get_weight` (tests.rs:291-296) -/
def getWeight (n curTime : Nat) : T Nat := do
  let r ← checked (TG.Service.getWeight (cp 1) (id' n) (.ofNat curTime))
  pure r.1

/-- `get_all_certs` (tests.rs:298-310) -/
def getAllCerts (n curTime : Nat) : T (List CertDto) := checked (TG.Service.getAllCerts (cp 1) (id' n) (.ofNat curTime))

/-- `for (i, trust) in certs[0].chain.iter().enumerate() { assert_eq!(*trust, trusts[i].trust) }` -/
def assertChain (certs : List CertDto) (trusts : List (Nat × TrustDto)) : T Unit :=
  match certs with
  | [] => failure
  | c :: _ => assert (decide (c.chain.length ≤ trusts.length ∧ c.chain = (trusts.map (·.2)).take c.chain.length))

/-- The test passes on an empty database. -/
def Passes {α : Type} (t : T α) : Prop := (t ⟨[], [], []⟩).isSome = true

instance {α : Type} (t : T α) : Decidable (Passes t) := inferInstanceAs (Decidable (_ = _))

def add_root_not_owner : T Unit := do
  let r ← call (setRoot ⟨"other_peer_id".toList, "some_peer_id".toList, [], []⟩ (id' 1) 0)
  assert (!r.success)
  assert (decide (r.error = some .notOwner))

def add_root_owner : T Unit := checked (setRoot ⟨"some_peer_id".toList, "some_peer_id".toList, [], []⟩ (id' 1) 0)

def add_root_trust : T Unit := do
  setRootPeerId 1 4
  let t ← issueTrust 1 1 0 9999
  checked (TG.Service.verifyTrust (cp 2) t (id' 1) 100)
  let w ← addTrustChecked t 1 100
  let w' ← getWeight 1 100
  assert (w' == w)

def test_expired_root_trust : T Unit := do
  let expired := 100 + 10000
  let _ ← addRootWithTrust 1 100 (expired - 1) 10
  let _ ← addTrust 1 2 100 (expired + 99999)
  let rootWeight ← getWeight 1 100
  let trustWeight ← getWeight 2 100
  assert (rootWeight / 2 == trustWeight)
  let certs ← getAllCerts 2 100
  assert (certs.length == 1)
  let certs ← getAllCerts 2 expired
  assert (certs.length == 0)
  let certs ← getAllCerts 2 100
  assert (certs.length == 0)

def trust_direct_revoke_test : T Unit := do
  let _ ← addRootWithTrust 1 100 (100 + 9999) 10
  let _ ← addTrust 1 2 100 (100 + 99999)
  let w ← getWeight 2 100
  assert (w != 0)
  let _ ← revoke 1 2 101
  let w ← getWeight 2 101
  assert (w == 0)

def indirect_revoke_test : T Unit := do
  let trusts ← generateTrustChain 5
  setRootPeerId 0 10
  addTrusts trusts now
  let w ← getWeight 4 now
  assert (w != 0)
  let _ ← revoke 1 4 (now + 1)
  let w ← getWeight 4 (now + 1)
  assert (w == 0)
  let _ ← addTrust 0 2 (now + 1) (now + 1 + 99999)
  let _ ← addTrust 2 4 (now + 1) (now + 1 + 99999)
  let w ← getWeight 4 (now + 1)
  assert (w != 0)

def test_add_one_trust_to_cert_last : T Unit := do
  let trusts ← generateTrustChain 5
  setRootPeerId 0 10
  addTrusts trusts now
  let t ← addTrust 4 9 now (now + 60)
  let previous ← getWeight 4 now
  assert (previous != 0)
  let w ← getWeight 9 now
  assert (w * 2 == previous)
  let certs ← getAllCerts 9 now
  assert (certs.length == 1)
  assertChain certs (trusts ++ [(4, t)])

def test_expired_trust : T Unit := do
  let trusts ← generateTrustChain 5
  setRootPeerId 0 10
  addTrusts trusts now
  let t ← addTrust 4 9 now (now + 60)
  let certs ← getAllCerts 9 now
  assert (certs.length == 1)
  assertChain certs (trusts ++ [(4, t)])
  let certs ← getAllCerts 9 (now + 60)
  assert (certs.length == 0)
  let certs ← getAllCerts 9 now
  assert (certs.length == 0)

def test_get_one_cert : T Unit := do
  let trusts ← generateTrustChain 5
  setRootPeerId 0 10
  addTrusts trusts now
  let certs ← getAllCerts 4 now
  assert (certs.length == 1)
  assertChain certs trusts

def test_chain_from_root_to_another_root : T Unit := do
  let trusts ← generateTrustChain 6
  setRootPeerId 0 10
  addTrusts trusts now
  let _ ← addRootWithTrust 5 now (now + 9999) 10
  let certs ← getAllCerts 5 now
  assert (certs.map (·.chain.length) == [6, 7])

def test_revoke_gc : T Unit := do
  let _ ← addRootWithTrust 1 100 (100 + 999) 10
  let _ ← addTrust 1 2 100 (100 + 99999)
  let w ← getWeight 2 100
  assert (w != 0)
  let _ ← revoke 1 2 101
  let w ← getWeight 2 101
  assert (w == 0)
  let _ ← addTrust 1 2 (101 - 10) (100 + 99999)
  let w ← getWeight 2 101
  assert (w == 0)

def test_update_trust : T Unit := do
  let _ ← addRootWithTrust 1 100 (100 + 999) 10
  let _ ← addTrust 1 2 100 110
  let w ← getWeight 2 100
  assert (w != 0)
  let _ ← addTrust 1 2 109 (120 + 99999)
  let w ← getWeight 2 120
  assert (w != 0)

def path_from_root_to_root_weight : T Unit := do
  let _ ← addRootWithTrust 1 100 (100 + 99999) 10
  let _ ← addRootWithTrust 2 100 (100 + 99999) 5
  let _ ← addTrust 2 3 100 (100 + 99999)
  let before2 ← getWeight 2 100
  let before3 ← getWeight 3 100
  let _ ← addTrust 1 2 100 (100 + 99999)
  let after2 ← getWeight 2 100
  let after3 ← getWeight 3 100
  assert (decide (before3 < after3))
  assert (decide (before2 < after2))

def add_self_signed_weight : T Unit := do
  let _ ← addRootWithTrust 1 100 (100 + 99999) 0
  let _ ← addTrust 1 2 100 (100 + 99999)
  let before ← getWeight 2 100
  let _ ← addTrust 2 2 100 (100 + 99999)
  let after ← getWeight 2 100
  assert (after == before)

def test_get_one_host_cert : T Unit := do
  let trusts ← generateTrustChain 5
  setRootPeerId 0 10
  addTrusts trusts now
  let certs ← checked (getHostCerts (cpHost 0 (id' 4)) (.ofNat now))
  assert (certs.length == 1)
  assertChain certs trusts

def test_get_one_host_cert_from : T Unit := do
  let trusts ← generateTrustChain 5
  setRootPeerId 0 10
  addTrusts trusts now
  let certs ← checked (getHostCertsFrom (cpHost 1 (id' 4)) (id' 3) (.ofNat now))
  assert (certs.map (·.chain.length) == [5])
  assertChain certs trusts

def test_get_all_cert_from : T Unit := do
  let trusts ← generateTrustChain 5
  setRootPeerId 0 10
  addTrusts trusts now
  let certs ← checked (getAllCertsFrom (cpHost 2 (id' 4)) (id' 4) (id' 3) (.ofNat now))
  assert (certs.map (·.chain.length) == [5])
  assertChain certs trusts

set_option maxRecDepth 100000

/-- tests.rs:312-326 -/
example : Passes add_root_not_owner := by decide +kernel
/-- tests.rs:328-343 -/
example : Passes add_root_owner := by decide +kernel
/-- tests.rs:345-391 -/
example : Passes add_root_trust := by decide +kernel
/-- tests.rs:393-432 -/
example : Passes test_expired_root_trust := by decide +kernel
/-- tests.rs:438-470 -/
example : Passes trust_direct_revoke_test := by decide +kernel
/-- tests.rs:478-524 -/
example : Passes indirect_revoke_test := by decide +kernel
/-- tests.rs:526-565 -/
example : Passes test_add_one_trust_to_cert_last := by decide +kernel
/-- tests.rs:567-607 -/
example : Passes test_expired_trust := by decide +kernel
/-- tests.rs:609-636 -/
example : Passes test_get_one_cert := by decide +kernel
/-- tests.rs:638-656 -/
example : Passes test_chain_from_root_to_another_root := by decide +kernel
/-- tests.rs:658-701 -/
example : Passes test_revoke_gc := by decide +kernel
/-- tests.rs:703-739 -/
example : Passes test_update_trust := by decide +kernel
/-- tests.rs:741-783 -/
example : Passes path_from_root_to_root_weight := by decide +kernel
/-- tests.rs:785-819 -/
example : Passes add_self_signed_weight := by decide +kernel
/-- tests.rs:821-849 -/
example : Passes test_get_one_host_cert := by decide +kernel
/-- tests.rs:851-884 -/
example : Passes test_get_one_host_cert_from := by decide +kernel
/-- tests.rs:886-920 -/
example : Passes test_get_all_cert_from := by decide +kernel

end TG.Conformance.ServiceTests
