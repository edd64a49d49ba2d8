/-
Model of /repo/trust-graph/src/certificate.rs and /repo/trust-graph/src/certificate_serde.rs.
-/
import Verif.Model.Trust

namespace TG

/-- `CertificateError` (certificate.rs:44-70); texts dropped. -/
inductive CertificateError where
  | incorrectCertificateFormat
  | incorrectByteLength
  | decodeError (e : TrustError)
  | expirationError
  | noTrustedRoot
  | malformedRoot (e : TrustError)
  | keyInCertificateError
  | certificateLengthError
  | decodeTrustError (i : Nat) (e : TrustError)
  | verificationError (i : Nat) (e : TrustError)
  | unexpected
  deriving DecidableEq, Repr

/-- A `for` loop whose body may return early with `?`, as in certificate.rs:223-230. -/
def forE {ε α : Type} (f : α → Outcome ε Unit) : List α → Outcome ε Unit
  | [] => .ok ()
  | a :: as => do f a; forE f as

variable [Env]

/-- `Certificate` (certificate.rs:39-41). -/
structure Certificate where
  chain : List Trust
  deriving DecidableEq

namespace Certificate

/-- `Certificate::new_unverified` (certificate.rs:73-75). -/
def newUnverified (chain : List Trust) : Certificate := ⟨chain⟩

/-- `Certificate::new_from_root_trust` (certificate.rs:77-89). -/
def newFromRootTrust (rootTrust issuedTrust : Trust) (curTime : Dur) :
    Outcome CertificateError Certificate := do
  (rootTrust.verify rootTrust.issuedFor curTime).mapErr .malformedRoot
  (issuedTrust.verify rootTrust.issuedFor curTime).mapErr (.verificationError 1)
  .ok ⟨[rootTrust, issuedTrust]⟩

/-- Body of the loop of `Certificate::verify` (certificate.rs:223-230); `chain[trust_id]` panics out of range. -/
def verifyStep (chain : List Trust) (curTime : Dur) (i : Nat) : Outcome CertificateError Unit :=
  match chain[i]?, chain[i - 1]? with
  | some t, some giver => (t.verify giver.issuedFor curTime).mapErr (.verificationError i)
  | _, _ => .panic

/-- `Certificate::verify` (certificate.rs:204-233). -/
def verify (cert : Certificate) (trustedRoots : List PublicKey) (curTime : Dur) :
    Outcome CertificateError Unit :=
  match cert.chain with
  | [] => .err .certificateLengthError
  | root :: _ => do
    (root.verify root.issuedFor curTime).mapErr .malformedRoot
    if trustedRoots.contains root.issuedFor then
      forE (verifyStep cert.chain curTime) (List.range' 1 (cert.chain.length - 1)).reverse
    else .err .noTrustedRoot

/-- The loop of certificate.rs:110-115 / 178-183: the last index whose trust was issued for `pk` (`none` is -1).
Simplification: the index is not truncated to `i32`. -/
def lastIndexOf (pk : PublicKey) (chain : List Trust) : Option Nat :=
  (List.range chain.length).foldl
    (fun acc i => match chain[i]? with
      | some t => if t.issuedFor = pk then some i else acc
      | none => acc) none

/-- `Certificate::issue_with_trust` (certificate.rs:91-131).  The appended trust is not verified.  `chain[0]` on line 106
panics for an empty chain. -/
def issueWithTrust (issuedBy : PublicKey) (trust : Trust) (extendCert : Certificate) (curTime : Dur) :
    Outcome CertificateError Certificate :=
  if trust.expiresAt.lt trust.issuedAt then .err .expirationError
  else match extendCert.chain with
    | [] => .panic
    | root :: _ => do
      extendCert.verify [root.issuedFor] curTime
      match lastIndexOf issuedBy extendCert.chain with
      | none => .err .keyInCertificateError
      | some i => .ok ⟨extendCert.chain.take (i + 1) ++ [trust]⟩

/-- `Certificate::issue_root` (certificate.rs:135-149); panics only if signing fails. -/
def issueRoot (rootKp : KeyPair) (forPk : PublicKey) (expiresAt issuedAt : Dur) :
    Outcome Empty Certificate := do
  let rootExpiration := Dur.ofSecs (UInt64.ofNat (2 ^ 64 - 1))
  let rootTrust ← Trust.create rootKp rootKp.pub rootExpiration issuedAt
  let trust ← Trust.create rootKp forPk expiresAt issuedAt
  .ok ⟨[rootTrust, trust]⟩

/-- `Certificate::issue` (certificate.rs:153-201). -/
def issue (issuedBy : KeyPair) (forPk : PublicKey) (extendCert : Certificate)
    (expiresAt issuedAt curTime : Dur) : Outcome CertificateError Certificate :=
  if expiresAt.lt issuedAt then .err .expirationError
  else match extendCert.chain with
    | [] => .panic
    | root :: _ => do
      extendCert.verify [root.issuedFor] curTime
      match lastIndexOf issuedBy.pub extendCert.chain with
      | none => .err .keyInCertificateError
      | some i => do
        let trust ← (Trust.create issuedBy forPk expiresAt issuedAt).mapErr (fun e => nomatch e)
        .ok ⟨extendCert.chain.take (i + 1) ++ [trust]⟩

/-- `FORMAT` (certificate.rs:31). -/
def format : Bytes := [0, 0]

/-- `VERSION` (certificate.rs:34). -/
def version : Bytes := [0, 0, 0, 0]

/-- `Certificate::encode` (certificate.rs:238-251); lengths are cast with `as u8`. -/
def encode (c : Certificate) : Bytes :=
  format ++ (version ++ (UInt8.ofNat c.chain.length ::
    c.chain.flatMap (fun t => UInt8.ofNat t.encode.length :: t.encode)))

/-- `Certificate::check_arr_len` (certificate.rs:253-259). -/
def checkArrLen (arr : Bytes) (n : Nat) : Outcome CertificateError Unit :=
  if arr.length < n then .err .certificateLengthError else .ok ()

/-- `arr[i]` (certificate.rs:262-293). -/
def index (arr : Bytes) (i : Nat) : Outcome CertificateError UInt8 :=
  match arr[i]? with
  | some b => .ok b
  | none => .panic

/-- `&arr[from..to]` (certificate.rs:262-293). -/
def slice (arr : Bytes) (lo hi : Nat) : Outcome CertificateError Bytes :=
  if lo ≤ hi ∧ hi ≤ arr.length then .ok ((arr.drop lo).take (hi - lo)) else .panic

/-- The loop of `Certificate::decode` (certificate.rs:280-290). -/
def decodeLoop (arr : Bytes) : Nat → Nat → Outcome CertificateError (List Trust)
  | 0, _ => .ok []
  | n + 1, offset => do
    checkArrLen arr (offset + 1)
    let trustLen := (← index arr offset).toNat
    let lo := offset + 1
    let hi := lo + trustLen
    checkArrLen arr hi
    let t ← (Trust.decode (← slice arr lo hi)).mapErr .decodeError
    let rest ← decodeLoop arr n (offset + (1 + trustLen))
    .ok (t :: rest)

/-- `Certificate::decode` (certificate.rs:262-293). -/
def decode (arr : Bytes) : Outcome CertificateError Certificate := do
  checkArrLen arr (2 + 4 + 1)
  let numberOfTrusts := (← index arr 6).toNat
  if numberOfTrusts < 2 then .err .certificateLengthError
  else do
    let chain ← decodeLoop arr numberOfTrusts 7
    .ok ⟨chain⟩

/-- `Display for Certificate` (certificate.rs:296-305): every `writeln!` ends the line. -/
def toText (c : Certificate) : Str :=
  Base58.encode format ++ '\n' :: (Base58.encode version ++ '\n' ::
    c.chain.flatMap (fun t => t.toText ++ ['\n']))

/-- The loop of `Certificate::from_str` (certificate.rs:324-334), over the lines from number `i` on. -/
def fromStrLoop : Nat → List Str → Outcome CertificateError (List Trust)
  | i, a :: b :: c :: d :: rest => do
    let t ← (Trust.convertFromStrings a b c d).mapErr (.decodeTrustError i)
    let ts ← fromStrLoop (i + 4) rest
    .ok (t :: ts)
  | _, [] => .ok []
  | _, _ => .panic

/-- `Certificate::from_str` (certificate.rs:307-338); `str_lines[0]` and `str_lines[1]` panic if missing. -/
def fromStr (s : Str) : Outcome CertificateError Certificate :=
  match lines s with
  | _format :: _version :: rest =>
    if rest.length % 4 ≠ 0 then .err .incorrectCertificateFormat
    else do
      let chain ← fromStrLoop 2 rest
      .ok (newUnverified chain)
  | _ => .panic

/-- `certificate_serde::single` (certificate_serde.rs:22-40): a certificate is serialised as its text. -/
def serdeSingle (c : Certificate) : Str := c.toText

/-- `certificate_serde::vec::serialize` / `deserialize` (certificate_serde.rs:42-71): element by element, failing at the first
element that does not parse. -/
def serdeVec (cs : List Certificate) : List Str := cs.map toText

/-- `certificate_serde::vec::deserialize` (certificate_serde.rs:58-70). -/
def deserializeVec : List Str → Outcome CertificateError (List Certificate)
  | [] => .ok []
  | s :: ss => do
    let c ← fromStr s
    let cs ← deserializeVec ss
    .ok (c :: cs)

end Certificate

end TG
