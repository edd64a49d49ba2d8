/-
Model of /repo/service/src/storage_impl.rs with its SQL texts: the `Storage` implementation, statement by statement, on the interpreter of Model/Sql.
-/
import Verif.Model.Sql

namespace TG
namespace SqlStorage
open Sql

/-- storage_impl.rs:33-41 -/
def createRelations : Str :=
chars "CREATE TABLE IF NOT EXISTS trust_relations(
        relation_type INTEGER,
        issued_for TEXT,
        issued_by TEXT,
        issued_at INTEGER,
        expires_at INTEGER,
        signature TEXT,
        PRIMARY KEY (issued_for, issued_by)
        );"

/-- storage_impl.rs:46-49 -/
def createRoots : Str :=
chars "CREATE TABLE IF NOT EXISTS roots(
        public_key TEXT,
        weight_factor INTEGER
        );"

/-- storage_impl.rs:97-98 -/
def selectRelations : Str :=
chars "SELECT relation_type, issued_for, issued_by, issued_at, expires_at, signature FROM trust_relations WHERE issued_for = ? and relation_type = ?"

/-- storage_impl.rs:203-204 -/
def selectRelation : Str :=
chars "SELECT relation_type, issued_for, issued_by, issued_at, expires_at, signature FROM trust_relations WHERE issued_by = ? AND issued_for = ?"

/-- storage_impl.rs:254 -/
def insertRelation : Str := chars "INSERT OR REPLACE INTO trust_relations VALUES (?, ?, ?, ?, ?, ?)"

/-- storage_impl.rs:281 -/
def selectRoot : Str := chars "SELECT public_key, weight_factor FROM roots WHERE public_key = ?"

/-- storage_impl.rs:303 -/
def insertRoot : Str := chars "INSERT OR REPLACE INTO roots VALUES (?, ?)"

/-- storage_impl.rs:318 -/
def selectRoots : Str := chars "SELECT public_key, weight_factor FROM roots"

/-- storage_impl.rs:344 -/
def deleteExpired : Str := chars "DELETE FROM trust_relations WHERE expires_at <= ? AND relation_type = ?"

/-- `row[i].as_integer().ok_or(e)?` (storage_impl.rs:157); a missing column panics. -/
def asInteger (e : SqlError) (row : List Value) (i : Nat) : Outcome SqlError Int :=
  match row[i]? with
  | some (.integer n) => .ok n
  | some _ => .err e
  | none => .panic

/-- `row[i].as_string().ok_or(e)?` (storage_impl.rs:158). -/
def asString (e : SqlError) (row : List Value) (i : Nat) : Outcome SqlError Str :=
  match row[i]? with
  | some (.string s) => .ok s
  | some _ => .err e
  | none => .panic

/-- `row[i].as_binary().ok_or(e)?` (storage_impl.rs:162). -/
def asBinary (e : SqlError) (row : List Value) (i : Nat) : Outcome SqlError Bytes :=
  match row[i]? with
  | some (.binary b) => .ok b
  | some _ => .err e
  | none => .panic

variable [Env]

/-- `create_tables` (storage_impl.rs:28-52); a failing statement is a panic (`unwrap`). -/
def createTables : M File Empty Unit := fun f =>
  match query createRelations [] f with
  | (.ok _, f) =>
    match query createRoots [] f with
    | (.ok _, f) => (.ok (), f)
    | (_, f) => (.panic, f)
  | (_, f) => (.panic, f)

/-- `parse_relation` (storage_impl.rs:156-182). -/
def parseRelation (row : List Value) : Outcome SqlError TrustRelation := do
  let relationType ← asInteger .fieldConversionDB row 0
  let issuedFor ← asString .fieldConversionDB row 1
  let issuedFor ← (PublicKey.fromBase58 issuedFor).mapErr .signatureDecodeError
  let issuedBy ← asString .fieldConversionDB row 2
  let issuedBy ← (PublicKey.fromBase58 issuedBy).mapErr .signatureDecodeError
  let issuedAt ← asInteger .fieldConversionDB row 3
  let issuedAt := Dur.ofSecs (asU64 issuedAt)
  let expiresAt ← asInteger .fieldConversionDB row 4
  let expiresAt := Dur.ofSecs (asU64 expiresAt)
  let signature ← asBinary .fieldConversionDB row 5
  let signature ← (Signature.decode signature).mapErr .signatureDecodeError
  if relationType = authType then
    .ok (.auth { trust := { issuedFor, expiresAt, signature, issuedAt }, issuedBy })
  else
    .ok (.revocation { pk := issuedFor, revokedAt := issuedAt, revokedBy := issuedBy, signature })

/-- The loop of `get_relations` (storage_impl.rs:106-113). -/
def parseRows : List (List Value) → Outcome SqlError (List TrustRelation)
  | [] => .ok []
  | row :: rows =>
    match parseRelation row with
    | .ok r => do
      let rest ← parseRows rows
      .ok (r :: rest)
    | .err _ => parseRows rows
    | .panic => .panic
    | .diverge => .diverge

/-- `SQLiteStorage::get_relations` (storage_impl.rs:89-116). -/
def getRelations (issuedFor : PublicKey) (relationType : Int) : M File SqlError (List TrustRelation) := do
  let rows ← query selectRelations [.string (keyText issuedFor), .integer relationType]
  M.lift (parseRows rows)

/-- `Storage::get_relation` (storage_impl.rs:195-218). -/
def getRelation (issuedFor issuedBy : PublicKey) : M File SqlError (Option TrustRelation) := do
  let rows ← query selectRelation [.string (keyText issuedBy), .string (keyText issuedFor)]
  match rows with
  | row :: _ => do
    let r ← M.lift (parseRelation row)
    pure (some r)
  | [] => pure none

/-- `Storage::get_authorizations` (storage_impl.rs:221-232). -/
def getAuthorizations (issuedFor : PublicKey) : M File SqlError (List Auth) := do
  let rs ← getRelations issuedFor authType
  pure (rs.filterMap (fun r => match r with
    | .auth a => some a
    | .revocation _ => none))

/-- `Storage::get_revocations` (storage_impl.rs:235-249). -/
def getRevocations (issuedFor : PublicKey) : M File SqlError (List Revocation) := do
  let rs ← getRelations issuedFor revocationType
  pure (rs.filterMap (fun r => match r with
    | .auth _ => none
    | .revocation r => some r))

/-- `Storage::insert` (storage_impl.rs:251-276). -/
def insert (relation : TrustRelation) : M File SqlError Unit := do
  let relationType := match relation with
    | .auth _ => authType
    | .revocation _ => revocationType
  let _ ← query insertRelation [.integer relationType, .string (keyText relation.issuedFor), .string (keyText relation.issuedBy),
    .integer (asI64 relation.issuedAt.secs), .integer (asI64 relation.expiresAt.secs), .binary relation.signature.encode]
  pure ()

/-- `SQLiteStorage::update_relation` (storage_impl.rs:64-87). -/
def updateRelation (relation : TrustRelation) : M File SqlError Unit := do
  let old ← getRelation relation.issuedFor relation.issuedBy
  match old with
  | some (.auth a) => if a.trust.issuedAt.lt relation.issuedAt then insert relation else pure ()
  | some (.revocation r) => if r.revokedAt.lt relation.issuedAt then insert relation else pure ()
  | none => insert relation

/-- `Storage::get_root_weight_factor` (storage_impl.rs:278-294). -/
def getRootWeightFactor (pk : PublicKey) : M File SqlError (Option Nat) := do
  let rows ← query selectRoot [.string (keyText pk)]
  match rows with
  | row :: _ => do
    let w ← M.lift (asInteger .weightFactorConversionDB row 1)
    if 0 ≤ w ∧ w < 2 ^ 32 then pure (some w.toNat) else M.fail .weightFactorConversionDB
  | [] => pure none

/-- `Storage::set_root_weight_factor` (storage_impl.rs:296-313). -/
def setRootWeightFactor (pk : PublicKey) (wf : Nat) : M File SqlError Unit := do
  let _ ← query insertRoot [.string (keyText pk), .integer (wf : Int)]
  pure ()

/-- The loop of `root_keys` (storage_impl.rs:323-328). -/
def parseRoots : List (List Value) → Outcome SqlError (List PublicKey)
  | [] => .ok []
  | row :: rows => do
    let pk ← asString .publicKeyConversion row 0
    let pk ← (PublicKey.fromBase58 pk).mapErr (fun _ => .publicKeyFromStr)
    let rest ← parseRoots rows
    .ok (pk :: rest)

/-- `Storage::root_keys` (storage_impl.rs:315-331). -/
def rootKeys : M File SqlError (List PublicKey) := do
  let rows ← query selectRoots []
  M.lift (parseRoots rows)

/-- `Storage::remove_expired` (storage_impl.rs:341-355). -/
def removeExpired (curTime : Dur) : M File SqlError Unit := do
  let _ ← query deleteExpired [.integer (asI64 curTime.secs), .integer authType]
  pure ()

/-- The number of rows of `trust_relations` (storage_impl.rs:32), for the loop bound of the model. -/
def relationCount (f : File) : Nat :=
  match f.tables.lookup "trust_relations".toList with
  | some t => t.rows.length
  | none => 0

end SqlStorage

/-- `impl Storage for SQLiteStorage` (storage_impl.rs:192-356), on the texts of the statements. -/
instance [Env] : Storage Sql.File SqlError where
  getRelation := SqlStorage.getRelation
  getAuthorizations := SqlStorage.getAuthorizations
  getRevocations := SqlStorage.getRevocations
  insert := SqlStorage.insert
  getRootWeightFactor := SqlStorage.getRootWeightFactor
  setRootWeightFactor := SqlStorage.setRootWeightFactor
  rootKeys := SqlStorage.rootKeys
  revoke := fun r => SqlStorage.updateRelation (.revocation r)
  updateAuth := fun a _ => SqlStorage.updateRelation (.auth a)
  removeExpired := SqlStorage.removeExpired
  ghostBound := SqlStorage.relationCount

end TG
