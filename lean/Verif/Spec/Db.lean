/-
Specification vocabulary for the database: which relations it holds, when it is healthy, and the snapshot of the trust
graph that it represents.
-/
import Verif.Spec.Graph
import Verif.Model.Sqlite

namespace TG
variable [Env]

/-- All times of the relation are whole seconds (the database keeps only those). -/
def TrustRelation.Whole : TrustRelation → Prop
  | .auth a => a.trust.issuedAt.Whole ∧ a.trust.expiresAt.Whole
  | .revocation r => r.revokedAt.Whole

/-- The whole seconds of a time: the part that is signed and stored. -/
def Dur.trunc (d : Dur) : Dur := Dur.ofSecs d.secs

/-- A trust as the database keeps it. -/
def Trust.trunc (t : Trust) : Trust :=
  { t with expiresAt := t.expiresAt.trunc, issuedAt := t.issuedAt.trunc }

/-- A relation as the database keeps it. -/
def TrustRelation.trunc : TrustRelation → TrustRelation
  | .auth a => .auth { a with trust := a.trust.trunc }
  | .revocation r => .revocation { r with revokedAt := r.revokedAt.trunc }

/-- The signature is accepted by the key that the relation claims as its issuer. -/
def TrustRelation.SignatureValid : TrustRelation → Prop
  | .auth a => a.issuedBy.verify (Trust.signatureBytes a.trust.issuedFor a.trust.expiresAt a.trust.issuedAt)
      a.trust.signature = .ok ()
  | .revocation r => r.revokedBy.verify (Revocation.signatureBytes r.pk r.revokedAt) r.signature = .ok ()

/-- The relation is in the table. -/
def Db.Stored (db : Db) (r : TrustRelation) : Prop := r.Whole ∧ Sqlite.toRow r ∈ db.relations

/-- The table represents relations, at most one per pair of keys, and the roots have the factors that
`set_root` computes. -/
structure Db.Healthy (db : Db) : Prop where
  rows : ∀ row ∈ db.relations, ∃ r : TrustRelation, r.Whole ∧ row = Sqlite.toRow r
  unique : db.relations.Pairwise (fun r r' => ¬ (r.issuedFor = r'.issuedFor ∧ r.issuedBy = r'.issuedBy))
  roots : ∀ row ∈ db.roots, ∃ (pk : PublicKey) (wf : Nat), wf ≤ 16 ∧ row = ⟨keyText pk, wf⟩

/-- All SQL statements succeed. -/
def Db.NoFaults (db : Db) : Prop := db.faults = []

/-- The trust survives garbage collection at `now`.  The database compares the seconds as signed 64-bit
numbers; for times below 2^63 this is `now < expires_at` in whole seconds. -/
def Spec.Live (t : Trust) (now : Dur) : Prop := asI64 now.secs < asI64 t.expiresAt.secs

/-- The trust graph represented by the database at time `now`. -/
def Db.snapshot (db : Db) (now : Dur) : Spec.Snapshot where
  trusted by' t := db.Stored (.auth ⟨t, by'⟩) ∧ Spec.Live t now
  revoked by' pk := ∃ r : Revocation, db.Stored (.revocation r) ∧ r.revokedBy = by' ∧ r.pk = pk
  root pk := ∃ row ∈ db.roots, row.publicKey = keyText pk

/-- The database after garbage collection at `now`: rows of trusts that are not live are gone. -/
def Db.collect (db : Db) (now : Dur) : Db :=
  { db with relations :=
      db.relations.filter (fun r => ¬ (r.expiresAt ≤ asI64 now.secs ∧ r.relationType = authType)) }

end TG
