/-
Vocabulary for nodes that pass trusts and revocations on to each other.
-/
import Verif.Spec.Submits
import Verif.Spec.Weight

namespace TG
variable [Env]

/-- Telling a node a trust or a revocation: `add_trust` or `revoke`. -/
def TrustRelation.tell (now : Dur) : TrustRelation → Op
  | .auth a => .addTrust a.trust a.issuedBy now
  | .revocation r => .revoke r

/-- Telling a node all of them, one after the other. -/
def tellAll (now : Dur) (msgs : List TrustRelation) (db : Db) : Db := msgs.foldl (fun db m => (m.tell now).run db) db

/-- The same again and again, `n` times. -/
def tellRounds (now : Dur) (msgs : List TrustRelation) : Nat → Db → Db
  | 0, db => db
  | n + 1, db => tellRounds now msgs n (tellAll now msgs db)

namespace Spec

/-- Whatever the node was told since its database was new, it was told messages of this collection: by any calls, in any order, any number of times.
Forged messages, whose signature is not valid, do not count. -/
def Told (msgs : List TrustRelation) (db : Db) : Prop := ∃ ops, History ops db ∧ ∀ op ∈ ops, ∀ m, op.Submits m → m ∈ msgs

/-- Telling the node any one of the messages now changes nothing any more. -/
def Settled (msgs : List TrustRelation) (now : Dur) (db : Db) : Prop := ∀ m ∈ msgs, ((m.tell now).run db).relations = db.relations

/-- Nobody on the certificate has revoked somebody after them, and after the root's own trust there are not more trusts than the maximum chain length of the
root. -/
def InOrder (db : Db) (now : Dur) (c : Certificate) : Prop :=
  Unrevoked (db.snapshot now) c.chain ∧
    ∀ t f, c.chain[0]? = some t → db.rootFactor t.issuedFor = some f → c.chain.length ≤ (16 - f) + 1

end Spec

end TG
