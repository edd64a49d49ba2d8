/-
Model of the running wasm module of the service: `INSTANCE`, `with_tg` and `wrapped_try` of /repo/service/src/misc.rs, `main` of /repo/service/src/main.rs, and the
exported functions of /repo/service/src/service_api.rs as they are entered from outside.

The module is built for wasm32-wasi (service/build.sh:10-15), where a panic does not unwind: it traps, no destructor runs, and the memory of the instance stays as it is.
The Marine runtime goes on using the instance.
-/
import Verif.Spec.Service
import Verif.Model.SqlStorage

namespace TG
variable [Env]

/-- The payloads of result records (service/src/results.rs). -/
inductive Payload where
  | unit
  | weight (w : Nat) (peerId : Str)
  | newWeight (w : Nat)
  | certs (cs : List CertDto)
  | bytes (b : Bytes)
  | trust (t : TrustDto)
  | revocation (r : RevocationDto)
  | revocations (rs : List RevocationDto)
  deriving DecidableEq

/-- A result record with its payload (service/src/results.rs). -/
def record {S α : Type} (f : α → Payload) (x : M S Empty (Res α)) : M S Empty (Res Payload) := do
  let r ← x
  pure ⟨r.success, r.error, f r.payload⟩

/-- Running the body of a call (service_api.rs:17-285): its result record and the storage it leaves. -/
def Call.reply {S σ : Type} [Storage S σ] (c : Call) (cp : CallParams) : M S Empty (Res Payload) :=
  match c with
  | .setRoot p n => record (fun _ => .unit) (Service.setRoot cp p n)
  | .insertCertRaw c t => record (fun _ => .unit) (Service.insertCertRaw cp c t)
  | .insertCert c t => record (fun _ => .unit) (Service.insertCert cp c t)
  | .getAllCerts p t => record .certs (Service.getAllCerts cp p t)
  | .getAllCertsFrom p i t => record .certs (Service.getAllCertsFrom cp p i t)
  | .getHostCerts t => record .certs (Service.getHostCerts cp t)
  | .getHostCertsFrom i t => record .certs (Service.getHostCertsFrom cp i t)
  | .getWeight p t => record (fun a => .weight a.1 a.2) (Service.getWeight cp p t)
  | .getWeightFrom p i t => record (fun a => .weight a.1 a.2) (Service.getWeightFrom cp p i t)
  | .getTrustBytes p e i => record .bytes (Service.getTrustBytes cp p e i)
  | .issueTrust p e i b => record .trust (Service.issueTrust cp p e i b)
  | .verifyTrust t i ts => record (fun _ => .unit) (Service.verifyTrust cp t i ts)
  | .addTrust t i ts => record .newWeight (Service.addTrust cp t i ts)
  | .getRevocationBytes p r => record .bytes (Service.getRevocationBytes cp p r)
  | .issueRevocation b p r s => record .revocation (Service.issueRevocation cp b p r s)
  | .revoke r ts => record (fun _ => .unit) (Service.revoke cp r ts)
  | .exportRevocations p => record .revocations (Service.exportRevocations cp p)

/-- The state of a running module: whether the `RefCell` of `INSTANCE` (misc.rs:53-55) is mutably borrowed, and the database file. -/
structure Instance where
  borrowed : Bool
  file : Sql.File

/-- `with_tg` (misc.rs:57-62).  `borrow_mut` panics if the cell is borrowed.  The borrow ends when its guard is dropped at the end of the call; after a panic in `func` it is
not dropped. -/
def withTg {α : Type} (func : M Sql.File Empty α) : M Instance Empty α := fun i =>
  if i.borrowed then (.panic, i)
  else match func i.file with
    | (.panic, f) => (.panic, ⟨true, f⟩)
    | (o, f) => (o, ⟨false, f⟩)

/-- `wrapped_try` (misc.rs:64-69), and what happens outside `with_tg`: `INSTANCE` is not used. -/
def wrappedTry {α : Type} (func : M Sql.File Empty α) : M Instance Empty α := fun i => ((func i.file).1, { i with file := (func i.file).2 })

/-- An exported function (service_api.rs:17-285) in the running module.  `set_root` enters `with_tg` only for the owner (:22-34); the functions that make or check bytes use
`wrapped_try` (:155-208, 231-256); all others are inside `with_tg`. -/
def Call.exported (c : Call) (cp : CallParams) : M Instance Empty (Res Payload) :=
  match c with
  | .setRoot .. => if cp.serviceCreatorPeerId = cp.initPeerId then withTg (c.reply cp) else wrappedTry (c.reply cp)
  | .getTrustBytes .. | .issueTrust .. | .verifyTrust .. | .getRevocationBytes .. | .issueRevocation .. => wrappedTry (c.reply cp)
  | _ => withTg (c.reply cp)

/-- `main` (main.rs:19-26): a new instance of the module on the file, `none` if it traps. -/
def startModule (f : Sql.File) : Option Instance × Sql.File :=
  match SqlStorage.createTables f with
  | (.ok _, f') => (some ⟨false, f'⟩, f')
  | (_, f') => (none, f')

end TG
