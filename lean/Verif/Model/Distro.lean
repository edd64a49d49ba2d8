/-
Model of /repo/distro/src/lib.rs: the certificates that the crate `trust-graph-distro` gives to the program that runs a node, and of the file that
/repo/admin/index.ts:83 writes.

The records of the crate have the fields of those of the service, so `TrustDto` and `CertDto` stand for both.
-/
import Verif.Model.Admin
import Verif.Model.Json

namespace TG
namespace Distro

/-- `Certs` (distro/src/lib.rs:37-42). -/
structure Certs where
  rootNode : Str
  maxChainLength : UInt32
  certs : List CertDto
  deriving DecidableEq

/-- A field in the derived `Deserialize` (distro/src/lib.rs:36, 44, 49): an unknown field is skipped, a second one of the same name and a missing one are errors. -/
def field (fs : List (Str × Json)) (name : Str) : Option Json :=
  match fs.filter (fun f => f.1 = name) with
  | [f] => some f.2
  | _ => none

/-- The fields in the derived `Deserialize` (distro/src/lib.rs:36, 44, 49): from an object by name (`visit_map`), from an array by position (`visit_seq`). -/
def fields (names : List Str) : Json → Option (List Json)
  | .obj fs => names.mapM (field fs)
  | .arr vs => if vs.length = names.length then some vs else none
  | _ => none

/-- `String` (distro/src/lib.rs:38, 51, 53, 54). -/
def readString : Json → Option Str
  | .str s => some s
  | _ => none

/-- An unsigned number below a bound (distro/src/lib.rs:39, 52, 55): serde_json makes a number with a sign, a point or an exponent something else, which is
an error. -/
def readNat (bound : Nat) : Json → Option Nat
  | .num t => (t.mapM decDigit).bind fun ds => if Base58.ofDigits 10 ds < bound then some (Base58.ofDigits 10 ds) else none
  | _ => none

/-- `Vec<T>` (distro/src/lib.rs:41, 46). -/
def readVec {α : Type} (f : Json → Option α) : Json → Option (List α)
  | .arr vs => vs.mapM f
  | _ => none

/-- The fields of `Trust` (distro/src/lib.rs:50-56). -/
def trustFields : List Str := ["issued_for".toList, "expires_at".toList, "signature".toList, "sig_type".toList, "issued_at".toList]

/-- `Deserialize for Trust` (distro/src/lib.rs:49-56). -/
def readTrust (v : Json) : Option TrustDto :=
  match fields trustFields v with
  | some [a, b, c, d, e] => do
    let issuedFor ← readString a
    let expiresAt ← readNat (2 ^ 64) b
    let signature ← readString c
    let sigType ← readString d
    let issuedAt ← readNat (2 ^ 64) e
    some { issuedFor, expiresAt := UInt64.ofNat expiresAt, signature, sigType, issuedAt := UInt64.ofNat issuedAt }
  | _ => none

/-- `Deserialize for Cert` (distro/src/lib.rs:44-47). -/
def readCert (v : Json) : Option CertDto :=
  match fields ["chain".toList] v with
  | some [a] => (readVec readTrust a).map CertDto.mk
  | _ => none

/-- `Deserialize for Certs` (distro/src/lib.rs:36-42). -/
def readCerts (v : Json) : Option Certs :=
  match fields ["root_node".toList, "max_chain_length".toList, "certs".toList] v with
  | some [a, b, c] => do
    let rootNode ← readString a
    let maxChainLength ← readNat (2 ^ 32) b
    let certs ← readVec readCert c
    some { rootNode, maxChainLength := UInt32.ofNat maxChainLength, certs }
  | _ => none

/-- `serde_json::from_str::<Certs>` (distro/src/lib.rs:59). -/
def fromStr (s : Str) : Option Certs := (Json.parse s).bind readCerts

/-- `KRAS_CERTS` (distro/src/lib.rs:58-60) for a value of `KRAS_CERTS_JSON`. -/
def krasCerts (json : Str) : Outcome Empty Certs :=
  match fromStr json with
  | some c => .ok c
  | none => .panic

/-- `Serialize for Trust` (distro/src/lib.rs:49-56). -/
def writeTrust (t : TrustDto) : Json :=
  .obj [("issued_for".toList, .str t.issuedFor), ("expires_at".toList, .num (showU64 t.expiresAt)), ("signature".toList, .str t.signature),
    ("sig_type".toList, .str t.sigType), ("issued_at".toList, .num (showU64 t.issuedAt))]

/-- `Serialize for Cert` (distro/src/lib.rs:44-47). -/
def writeCert (c : CertDto) : Json := .obj [("chain".toList, .arr (c.chain.map writeTrust))]

/-- `Serialize for Certs` (distro/src/lib.rs:36-42). -/
def writeCerts (c : Certs) : Json :=
  .obj [("root_node".toList, .str c.rootNode), ("max_chain_length".toList, .num (showU64 c.maxChainLength.toUInt64)),
    ("certs".toList, .arr (c.certs.map writeCert))]

/-- `serde_json::to_string::<Certs>` (distro/src/lib.rs:36). -/
def toStr (c : Certs) : Str := Json.stringify (writeCerts c)

end Distro

namespace Admin

/-- A trust as the node returned it to the program (admin/index.ts:41, 83), with its fields in the order of on_start.json.  Simplification: a JavaScript number is
written exactly; the times are far below 2^53. -/
def trustJson (t : TrustDto) : Json :=
  .obj [("sig_type".toList, .str t.sigType), ("expires_at".toList, .num (showU64 t.expiresAt)), ("issued_at".toList, .num (showU64 t.issuedAt)),
    ("issued_for".toList, .str t.issuedFor), ("signature".toList, .str t.signature)]

/-- A certificate as the program makes it (admin/index.ts:73, 79). -/
def certJson (c : CertDto) : Json := .obj [("chain".toList, .arr (c.chain.map trustJson))]

/-- `JSON.stringify({certs: certificates})` (admin/index.ts:83). -/
def file (certs : List CertDto) : Str := Json.stringify (.obj [("certs".toList, .arr (certs.map certJson))])

/-- What the node takes from on_start.json for the script (builtin-package/package.sh, on_start.air:14): the value of `certs`.  The program that does this is not in
the repository; it is taken to read records as the crate does. -/
def readFile (s : Str) : Option (List CertDto) :=
  (Json.parse s).bind fun v => match Distro.fields ["certs".toList] v with
    | some [a] => Distro.readVec Distro.readCert a
    | _ => none

end Admin
end TG
