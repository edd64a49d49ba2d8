/-
Model of /repo/service/src/storage_impl.rs: the `Storage` implementation on SQLite.

The database is its two tables.  Every SQL statement consumes one entry of `faults` (if any): `true` makes the
statement fail with an SQLite error and change nothing.  The empty list means that all statements succeed.
-/
import Verif.Model.Graph

namespace TG

/-- A row of table `roots` (storage_impl.rs:46-49).  The table has no primary key. -/
structure RootRow where
  publicKey : Str
  weightFactor : Int
  deriving DecidableEq, Repr

/-- The database (`SQLiteStorage`, storage_impl.rs:54-56), with the fault schedule. -/
structure Db where
  relations : List RelRow
  roots : List RootRow
  faults : List Bool
  deriving DecidableEq, Repr

/-- State after `create_tables` (storage_impl.rs:28-52) on a new file. -/
def Db.empty : Db := ⟨[], [], []⟩

/-- `SQLiteStorageError` (storage_impl.rs:119-155), restricted to the constructors used. -/
inductive SqlError where
  | sqliteError
  | publicKeyFromStr
  | fieldConversionDB
  | weightFactorConversionDB
  | publicKeyConversion
  | signatureDecodeError (e : DecodingError)
  deriving DecidableEq, Repr

/-- `AUTH_TYPE` (storage_impl.rs:24). -/
def authType : Int := 0

/-- `REVOCATION_TYPE` (storage_impl.rs:25). -/
def revocationType : Int := 1

variable [Env]

/-- `Display for PublicKeyHashable` (trust-graph/src/public_key_hashable.rs:77-81): the key column text. -/
def keyText (pk : PublicKey) : Str := Base58.encode pk.encode

namespace Sqlite

/-- Executing one SQL statement (`prepare`, `bind`, `next`; for example storage_impl.rs:94-108): it may fail, otherwise `f` acts on the tables. -/
def stmt {α : Type} (f : Db → Outcome SqlError α × Db) : M Db SqlError α := fun db =>
  match db.faults with
  | [] => f db
  | true :: fs => (.err .sqliteError, { db with faults := fs })
  | false :: fs => f { db with faults := fs }

/-- `parse_relation` (storage_impl.rs:156-182). -/
def parseRelation (row : RelRow) : Outcome SqlError TrustRelation := do
  let issuedFor ← (PublicKey.fromBase58 row.issuedFor).mapErr .signatureDecodeError
  let issuedBy ← (PublicKey.fromBase58 row.issuedBy).mapErr .signatureDecodeError
  let issuedAt := Dur.ofSecs (asU64 row.issuedAt)
  let expiresAt := Dur.ofSecs (asU64 row.expiresAt)
  let signature ← (Signature.decode row.signature).mapErr .signatureDecodeError
  if row.relationType = authType then
    .ok (.auth { trust := { issuedFor, expiresAt, signature, issuedAt }, issuedBy })
  else
    .ok (.revocation { pk := issuedFor, revokedAt := issuedAt, revokedBy := issuedBy, signature })

/-- The loop of `get_relations` (storage_impl.rs:106-113): rows that do not parse are logged and skipped. -/
def parseRows : List RelRow → Outcome SqlError (List TrustRelation)
  | [] => .ok []
  | row :: rows =>
    match parseRelation row with
    | .ok r => do
      let rest ← parseRows rows
      .ok (r :: rest)
    | .err _ => parseRows rows
    | .panic => .panic
    | .diverge => .diverge

/-- `SQLiteStorage::get_relations` (storage_impl.rs:89-116). -/
def getRelations (issuedFor : PublicKey) (relationType : Int) : M Db SqlError (List TrustRelation) :=
  stmt fun db =>
    (parseRows (Env.scan (keyText issuedFor)
      (db.relations.filter (fun r => r.issuedFor = keyText issuedFor ∧ r.relationType = relationType))), db)

/-- `Storage::get_relation` (storage_impl.rs:195-218): the first matching row. -/
def getRelation (issuedFor issuedBy : PublicKey) : M Db SqlError (Option TrustRelation) :=
  stmt fun db =>
    match db.relations.find? (fun r => r.issuedBy = keyText issuedBy ∧ r.issuedFor = keyText issuedFor) with
    | none => (.ok none, db)
    | some row =>
      (do
        let r ← parseRelation row
        .ok (some r), db)

/-- `Storage::get_authorizations` (storage_impl.rs:221-232). -/
def getAuthorizations (issuedFor : PublicKey) : M Db SqlError (List Auth) := do
  let rs ← getRelations issuedFor authType
  pure (rs.filterMap (fun r => match r with
    | .auth a => some a
    | .revocation _ => none))

/-- `Storage::get_revocations` (storage_impl.rs:235-249). -/
def getRevocations (issuedFor : PublicKey) : M Db SqlError (List Revocation) := do
  let rs ← getRelations issuedFor revocationType
  pure (rs.filterMap (fun r => match r with
    | .auth _ => none
    | .revocation r => some r))

/-- The row bound by `insert` (storage_impl.rs:256-272). -/
def toRow (relation : TrustRelation) : RelRow where
  relationType := match relation with
    | .auth _ => authType
    | .revocation _ => revocationType
  issuedFor := keyText relation.issuedFor
  issuedBy := keyText relation.issuedBy
  issuedAt := asI64 relation.issuedAt.secs
  expiresAt := asI64 relation.expiresAt.secs
  signature := relation.signature.encode

/-- `Storage::insert` (storage_impl.rs:251-276): `INSERT OR REPLACE` on the primary key (issued_for, issued_by) removes a row
with the same key first. -/
def insert (relation : TrustRelation) : M Db SqlError Unit :=
  stmt fun db =>
    let row := toRow relation
    (.ok (), { db with relations :=
      db.relations.filter (fun r => ¬ (r.issuedFor = row.issuedFor ∧ r.issuedBy = row.issuedBy)) ++ [row] })

/-- `SQLiteStorage::update_relation` (storage_impl.rs:64-87). -/
def updateRelation (relation : TrustRelation) : M Db SqlError Unit := do
  let old ← getRelation relation.issuedFor relation.issuedBy
  match old with
  | some (.auth a) => if a.trust.issuedAt.lt relation.issuedAt then insert relation else pure ()
  | some (.revocation r) => if r.revokedAt.lt relation.issuedAt then insert relation else pure ()
  | none => insert relation

/-- `Storage::get_root_weight_factor` (storage_impl.rs:278-294): the first row in insertion order. -/
def getRootWeightFactor (pk : PublicKey) : M Db SqlError (Option Nat) :=
  stmt fun db =>
    match db.roots.find? (fun r => r.publicKey = keyText pk) with
    | none => (.ok none, db)
    | some row =>
      if 0 ≤ row.weightFactor ∧ row.weightFactor < 2 ^ 32 then (.ok (some row.weightFactor.toNat), db)
      else (.err .weightFactorConversionDB, db)

/-- `Storage::set_root_weight_factor` (storage_impl.rs:296-313): the table has no primary key, so `INSERT OR REPLACE`
appends. -/
def setRootWeightFactor (pk : PublicKey) (wf : Nat) : M Db SqlError Unit :=
  stmt fun db => (.ok (), { db with roots := db.roots ++ [⟨keyText pk, (wf : Int)⟩] })

/-- The loop of `root_keys` (storage_impl.rs:323-328). -/
def parseRoots : List RootRow → Outcome SqlError (List PublicKey)
  | [] => .ok []
  | row :: rows => do
    let pk ← (PublicKey.fromBase58 row.publicKey).mapErr (fun _ => .publicKeyFromStr)
    let rest ← parseRoots rows
    .ok (pk :: rest)

/-- `Storage::root_keys` (storage_impl.rs:315-331). -/
def rootKeys : M Db SqlError (List PublicKey) := stmt fun db => (parseRoots db.roots, db)

/-- `Storage::remove_expired` (storage_impl.rs:341-355). -/
def removeExpired (curTime : Dur) : M Db SqlError Unit :=
  stmt fun db =>
    (.ok (), { db with relations :=
      db.relations.filter (fun r => ¬ (r.expiresAt ≤ asI64 curTime.secs ∧ r.relationType = authType)) })

end Sqlite

/-- `impl Storage for SQLiteStorage` (storage_impl.rs:192-356). -/
instance : Storage Db SqlError where
  getRelation := Sqlite.getRelation
  getAuthorizations := Sqlite.getAuthorizations
  getRevocations := Sqlite.getRevocations
  insert := Sqlite.insert
  getRootWeightFactor := Sqlite.getRootWeightFactor
  setRootWeightFactor := Sqlite.setRootWeightFactor
  rootKeys := Sqlite.rootKeys
  revoke := fun r => Sqlite.updateRelation (.revocation r)
  updateAuth := fun a _ => Sqlite.updateRelation (.auth a)
  removeExpired := Sqlite.removeExpired
  ghostBound := fun db => db.relations.length

end TG
