/-
Properties C04 and C14 for weights: weight queries return.

`db.Bounded 0`: a release build, or fewer than 2^32 - 16 relations.  (The length of a chain is kept in 32 bits.  A debug build checks the addition of
the length to the factor of the root; a chain that overflows it would need as many relations.)
-/
import Verif.Proofs.NoTrap

namespace TG
variable [Env]

/-- **C04** (weights).  Weight queries always return: they neither panic nor run forever, whatever the graph. -/
theorem C04_weight_returns {db : Db} (hh : db.Healthy) (hb : db.Bounded 0) (target issuer : PublicKey) (now : Dur) :
    Returns (TrustGraph.weight target now db).1 ∧
    Returns (TrustGraph.weightFrom target issuer now db).1 := by
  obtain ⟨w, hw⟩ := Db.weight_returns hh.calm (Db.calm_noFaults _) hb target now
  obtain ⟨w', hw'⟩ := Db.weightFrom_returns hh.calm (Db.calm_noFaults _) hb target issuer now
  exact ⟨returns_of (TrustGraph.weight_transparent _ _) ⟨_, _, hw⟩,
    returns_of (TrustGraph.weightFrom_transparent _ _ _) ⟨_, _, hw'⟩⟩

/-- **C14** (weights).  On every reachable database, while SQL statements succeed, weight queries succeed. -/
theorem C14_weight_queries_succeed {db : Db} (hr : Reachable db) (hf : db.NoFaults) (hb : db.Bounded 0) (pk issuer : PublicKey)
    (now : Dur) :
    (∃ w, (TrustGraph.weight pk now db).1 = .ok w) ∧
    (∃ w, (TrustGraph.weightFrom pk issuer now db).1 = .ok w) := by
  obtain ⟨w, hw⟩ := Db.weight_returns hr.healthy hf hb pk now
  obtain ⟨w', hw'⟩ := Db.weightFrom_returns hr.healthy hf hb pk issuer now
  exact ⟨⟨w, by rw [hw]⟩, ⟨w', by rw [hw']⟩⟩

/-- **C14** (arithmetic).  The factor of every returned certificate is the factor of its root plus the number of trusts after the root trust, without
overflow, while there are fewer than 2^32 - 16 relations: also in release builds, which would not report an overflow. -/
theorem C14_no_overflow {db db' : Db} {pk : PublicKey} {now : Dur} {cs : List Certificate} (hh : db.Healthy)
    (hn : db.relations.length + 16 < 2 ^ 32) (h : TrustGraph.getAllCerts pk now db = (.ok cs, db')) :
    ∀ c ∈ cs, ∀ t ∈ c.chain.head?, ∀ f, db.rootFactor t.issuedFor = some f →
      TrustGraph.chainFactor f c.chain.length = .ok (f + (c.chain.length - 1)) ∧ f + (c.chain.length - 1) < 2 ^ 32 := by
  intro c hc t _ f hf
  rw [getAllCerts_ok hh h] at hc
  have h1 := hh.rootFactor_le hf
  have h2 := Db.certs_length_le hh hc
  have h3 := ((Db.mem_certs_iff hh pk now c).mp hc).linked.long
  exact ⟨Db.chainFactor_eq h1 (by omega) (by omega), by omega⟩

end TG
