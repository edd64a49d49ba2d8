/-
A reference machine for the whole service: its state is that of the reference machine of the library, its steps are the exported calls with their raw arguments and
their result records.
-/
import Verif.Spec.Machine
import Verif.Model.Instance

namespace TG
variable [Env]

/-- What can be seen of the service from outside: that it is started (and whether this succeeds), and that a call by a caller with `cp` ends with an outcome. -/
inductive Event where
  | start (success : Bool)
  | call (cp : CallParams) (c : Call) (o : Outcome Empty (Res Payload))

/-- The runs of the service on a database file that is new at the beginning, with the SQL texts of the source.  The module is started at any moment and any number of
times; it is up if that succeeded, and then gets calls by anyone with any arguments.  Only if `faulty`, SQL statements may fail, at any moment. -/
inductive ServiceRun (faulty : Prop) : List Event → Option Instance → Sql.File → Prop
  | new : ServiceRun faulty [] none ⟨[], []⟩
  | start {tr i f} : ServiceRun faulty tr i f →
      ServiceRun faulty (tr ++ [.start (startModule f).1.isSome]) (startModule f).1 (startModule f).2
  | call {tr i f} (cp : CallParams) (c : Call) : ServiceRun faulty tr (some i) f →
      ServiceRun faulty (tr ++ [.call cp c (c.exported cp i).1]) (some (c.exported cp i).2) (c.exported cp i).2.file
  | weather {tr i f} (faults : List Bool) : faulty → ServiceRun faulty tr i f →
      ServiceRun faulty tr (i.map fun i => { i with file.faults := faults }) { f with faults }

/-- The number of trusts and revocations that a call hands over, at most. -/
def Call.offered : Call → Nat
  | .insertCert d _ => d.chain.length
  | .insertCertRaw s _ => (lines s).length
  | .addTrust .. => 1
  | .revoke .. => 1
  | _ => 0

/-- The number of trusts and revocations handed over in a run, at most. -/
def offeredIn (tr : List Event) : Nat := (tr.map fun | .start _ => 0 | .call _ c _ => c.offered).sum

/-- The peer ids among the arguments, except those in records. -/
def Call.peers (cp : CallParams) : Call → List Str
  | .setRoot p _ => [p]
  | .getAllCerts p _ => [p]
  | .getAllCertsFrom p i _ => [p, i]
  | .getHostCerts _ => [cp.hostId]
  | .getHostCertsFrom i _ => [cp.hostId, i]
  | .getWeight p _ => [p]
  | .getWeightFrom p i _ => [p, i]
  | .getTrustBytes p _ _ => [p]
  | .issueTrust p _ _ _ => [p]
  | .verifyTrust _ i _ => [i]
  | .addTrust _ i _ => [i]
  | .getRevocationBytes p _ => [p]
  | .issueRevocation b p _ _ => [b, p]
  | .exportRevocations p => [p]
  | .insertCertRaw .. | .insertCert .. | .revoke .. => []

/-- The peer ids in records among the arguments. -/
def Call.recordPeers : Call → List Str
  | .insertCert d _ => d.chain.map (·.issuedFor)
  | .verifyTrust d _ _ => [d.issuedFor]
  | .addTrust d _ _ => [d.issuedFor]
  | .revoke d _ => [d.revokedPeerId, d.revokedBy]
  | _ => []

/-- The signatures in records among the arguments, with the names of their formats. -/
def Call.signatures : Call → List (Str × Str)
  | .insertCert d _ => d.chain.map (fun t => (t.signature, t.sigType))
  | .verifyTrust d _ _ => [(d.signature, d.sigType)]
  | .addTrust d _ _ => [(d.signature, d.sigType)]
  | .revoke d _ => [(d.signature, d.sigType)]
  | _ => []

/-- Which argument must come from the clock of the host.  For `get_weight_from` it is the wrong one (F8), and `insert_cert`, `insert_cert_raw` do not care (F9). -/
def Call.clockArg : Call → Option Nat
  | .getWeightFrom .. => some 1
  | .insertCert .. | .insertCertRaw .. => none
  | c => c.timestampArg

/-- The payload of a record that reports a failure. -/
def Call.neutral : Call → Payload
  | .getAllCerts .. | .getAllCertsFrom .. | .getHostCerts .. | .getHostCertsFrom .. => .certs []
  | .getWeight .. | .getWeightFrom .. => .weight 0 []
  | .getTrustBytes .. | .getRevocationBytes .. => .bytes []
  | .issueTrust .. => .trust ⟨[], 0, [], [], 0⟩
  | .issueRevocation .. => .revocation ⟨[], 0, [], [], []⟩
  | .addTrust .. => .newWeight 0
  | .exportRevocations .. => .revocations []
  | .setRoot .. | .insertCert .. | .insertCertRaw .. | .verifyTrust .. | .revoke .. => .unit

/-- How the service presents the answer of the library. -/
def Call.present : Call → Answer → Payload
  | .getWeight p _, .weight w => .weight w p
  | .getWeightFrom p _ _, .weight w => .weight w p
  | _, .weight w => .newWeight w
  | _, .certs cs => .certs (cs.map Dto.ofCertificate)
  | _, .revocations rs => .revocations (rs.map Dto.ofRevocation)
  | _, .unit => .unit

namespace Spec

/-- The text is a peer id with the key in it. -/
def Names (s : Str) (k : PublicKey) : Prop := ∃ p, PeerId.fromStr s = some p ∧ PublicKey.ofPeerId p = .ok k

/-- The signature written in a record. -/
def IsSignature (text format : Str) (s : Signature) : Prop := Base58.decode text = some s.raw ∧ format = s.sigType.toStr

/-- The trust written in a record. -/
def IsTrust (d : TrustDto) (t : Trust) : Prop :=
  Names d.issuedFor t.issuedFor ∧ IsSignature d.signature d.sigType t.signature ∧ t.expiresAt = .ofSecs d.expiresAt ∧ t.issuedAt = .ofSecs d.issuedAt

/-- The revocation written in a record. -/
def IsRevocation (d : RevocationDto) (r : Revocation) : Prop :=
  Names d.revokedPeerId r.pk ∧ Names d.revokedBy r.revokedBy ∧ IsSignature d.signature d.sigType r.signature ∧ r.revokedAt = .ofSecs d.revokedAt

/-- The certificate written in a record. -/
def IsCertificate (d : CertDto) (c : Certificate) : Prop := List.Forall₂ IsTrust d.chain c.chain

/-- What must hold for a call to be served, apart from its arguments being readable: roots are set by the owner, the time comes from the clock of the host, and nothing
is dated in the future. -/
def Allowed (cp : CallParams) (c : Call) : Prop :=
  (∀ p n, c = .setRoot p n → cp.initPeerId = cp.serviceCreatorPeerId) ∧ (∀ n, c.clockArg = some n → cp.FromHostClock n) ∧
  (∀ d i t, c = .addTrust d i t → d.issuedAt ≤ t) ∧ (∀ d t, c = .revoke d t → d.revokedAt ≤ t)

/-- The library call that a call of the service stands for. -/
inductive Means (cp : CallParams) : Call → Op → Prop
  | setRoot {p n k} : Names p k → Means cp (.setRoot p n) (.setRoot k n.toNat)
  | insertCertRaw {s t c} : Certificate.fromStr s = .ok c → Means cp (.insertCertRaw s t) (.add c (.ofSecs t))
  | insertCert {d t c} : IsCertificate d c → Means cp (.insertCert d t) (.add c (.ofSecs t))
  | getAllCerts {p t k} : Names p k → Means cp (.getAllCerts p t) (.getAllCerts k (.ofSecs t))
  | getAllCertsFrom {p i t k a} : Names p k → Names i a → Means cp (.getAllCertsFrom p i t) (.getAllCertsFrom k a (.ofSecs t))
  | getHostCerts {t k} : Names cp.hostId k → Means cp (.getHostCerts t) (.getAllCerts k (.ofSecs t))
  | getHostCertsFrom {i t k a} : Names cp.hostId k → Names i a → Means cp (.getHostCertsFrom i t) (.getAllCertsFrom k a (.ofSecs t))
  | getWeight {p t k} : Names p k → Means cp (.getWeight p t) (.weight k (.ofSecs t))
  | getWeightFrom {p i t k a} : Names p k → Names i a → Means cp (.getWeightFrom p i t) (.weightFrom k a (.ofSecs t))
  | addTrust {d i t x a} : IsTrust d x → Names i a → Means cp (.addTrust d i t) (.addTrust x a (.ofSecs t))
  | revoke {d t r} : IsRevocation d r → Means cp (.revoke d t) (.revoke r)
  | exportRevocations {p k} : Names p k → Means cp (.exportRevocations p) (.getRevocations k)

/-- The calls that do not concern the graph, with what they return. -/
inductive Computes : Call → Payload → Prop
  | getTrustBytes {p e i k} : Names p k → Computes (.getTrustBytes p e i) (.bytes (Trust.signatureBytes k (.ofSecs e) (.ofSecs i)))
  | issueTrust {p e i b k} : Names p k →
      Computes (.issueTrust p e i b) (.trust (Dto.ofTrust (Trust.new k (.ofSecs e) (.ofSecs i) (Signature.fromBytes k.keyFormat b))))
  | verifyTrust {d i t x a} : IsTrust d x → Names i a → x.verify a (.ofSecs t) = .ok () → Computes (.verifyTrust d i t) .unit
  | getRevocationBytes {p r k} : Names p k → Computes (.getRevocationBytes p r) (.bytes (Revocation.signatureBytes k (.ofSecs r)))
  | issueRevocation {b p r s k a} : Names b a → Names p k →
      Computes (.issueRevocation b p r s) (.revocation (Dto.ofRevocation (Revocation.new a k (.ofSecs r) (Signature.fromBytes a.keyFormat s))))

/-- The reasons for which the service itself refuses a call. -/
inductive Objection (cp : CallParams) : Call → ServiceError → Prop
  | owner {p n} : cp.initPeerId ≠ cp.serviceCreatorPeerId → Objection cp (.setRoot p n) .notOwner
  | clock {c n} : c.clockArg = some n → ¬ cp.FromHostClock n → Objection cp c .invalidTimestampTetraplet
  | futureTrust {d i t} : t < d.issuedAt → Objection cp (.addTrust d i t) .invalidTimestamp
  | futureRevocation {d t} : t < d.revokedAt → Objection cp (.revoke d t) .invalidTimestamp
  | noPeerId {c p} : p ∈ c.peers cp → PeerId.fromStr p = none → Objection cp c .publicKeyExtractionError
  | noKey {c p q} : p ∈ c.peers cp → PeerId.fromStr p = some q → (∀ k, PublicKey.ofPeerId q ≠ .ok k) →
      Objection cp c (.publicKeyDecodeError .publicKeyNotInlined)
  | recordKey {c p} : p ∈ c.recordPeers → (∀ k, ¬ Names p k) → Objection cp c (.dtoError .peerIdDecodeError)
  | recordSignature {c s f} : (s, f) ∈ c.signatures → Base58.decode s = none → Objection cp c (.dtoError .base58Error)
  | recordFormat {c s f} : (s, f) ∈ c.signatures → (∀ k : KeyFormat, f ≠ k.toStr) → Objection cp c (.dtoError (.invalidKeyFormat .invalidKeyFormat))
  | text {s t e} : Certificate.fromStr s = .err e → Objection cp (.insertCertRaw s t) (.certError e)
  | wrong {d i t x a e} : IsTrust d x → Names i a → x.verify a (.ofSecs t) = .err e → Objection cp (.verifyTrust d i t) (.trustError e)

/-- `Serve w cp c r w'`: the call `c` by a caller with `cp` returns the record `r` and leads to `w'`. -/
inductive Serve (w : World) (cp : CallParams) : Call → Res Payload → World → Prop
  | answer {c op a w'} : Allowed cp c → Means cp c op → w.Step op (.ok a) w' → Serve w cp c ⟨true, none, c.present a⟩ w'
  | decline {c op e w'} : Allowed cp c → Means cp c op → w.Step op (.err e) w' → Serve w cp c ⟨false, some (.tgError e), c.neutral⟩ w'
  | compute {c p} : Allowed cp c → Computes c p → Serve w cp c ⟨true, none, p⟩ w
  | refuse {c e} : Objection cp c e → Serve w cp c ⟨false, some e, c.neutral⟩ w

/-- The calls that need the graph: all but those that make or check bytes, and attempts to set a root by others than the owner. -/
def NeedsGraph (cp : CallParams) : Call → Prop
  | .getTrustBytes .. | .issueTrust .. | .verifyTrust .. | .getRevocationBytes .. | .issueRevocation .. => False
  | .setRoot .. => cp.initPeerId = cp.serviceCreatorPeerId
  | _ => True

/-- What the service is doing: it is not running, it is up, or it is stuck because of an earlier panic. -/
inductive Status where
  | down
  | up
  | stuck

/-- The runs of the machine.  A certificate text may make the service panic (`C49_text_exact_partial` says which); from then on it is stuck, and panics in all calls that need
the graph, until it is started again.  Only if `faulty`, SQL statements may fail; this is reported. -/
inductive Serves (faulty : Prop) : List Event → World → Status → Prop
  | new : Serves faulty [] .empty .down
  | start {tr w s} : Serves faulty tr w s → Serves faulty (tr ++ [.start true]) w .up
  | noStart {tr w s} : faulty → Serves faulty tr w s → Serves faulty (tr ++ [.start false]) w .down
  | call {tr w cp c r w'} : Serves faulty tr w .up → Serve w cp c r w' → Serves faulty (tr ++ [.call cp c (.ok r)]) w' .up
  | fault {tr w cp c op w'} : faulty → Serves faulty tr w .up → Allowed cp c → Means cp c op → w.Break op w' →
      Serves faulty (tr ++ [.call cp c (.ok ⟨false, some (.tgError .internalStorageError), c.neutral⟩)]) w' .up
  | trap {tr w cp s t} : Serves faulty tr w .up → Certificate.fromStr s = .panic → Serves faulty (tr ++ [.call cp (.insertCertRaw s t) .panic]) w .stuck
  | stuck {tr w cp c} : Serves faulty tr w .stuck → NeedsGraph cp c → Serves faulty (tr ++ [.call cp c .panic]) w .stuck
  | aside {tr w cp c r} : Serves faulty tr w .stuck → ¬ NeedsGraph cp c → Serve w cp c r w → Serves faulty (tr ++ [.call cp c (.ok r)]) w .stuck

end Spec

end TG
