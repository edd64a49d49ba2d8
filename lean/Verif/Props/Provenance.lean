/-
Properties C71 and C72: where stored relations come from.
-/
import Verif.Props.History
import Verif.Props.Demo

namespace TG
variable [Env]

/-- Every history leads to a reachable database, and every reachable database has a history. -/
theorem History.reachable {ops : List Op} {db : Db} (h : History ops db) : Reachable db := by
  induction h with
  | init => exact .init
  | step op _ ih => exact ih.step op
  | weather fs _ ih => exact ih.weather fs

theorem Reachable.history {db : Db} (h : Reachable db) : ∃ ops, History ops db := by
  induction h with
  | init => exact ⟨_, .init⟩
  | step op _ ih => exact ih.elim fun _ h => ⟨_, h.step op⟩
  | weather fs _ ih => exact ih.elim fun _ h => ⟨_, h.weather fs⟩

/-! ### C72 -/

/-- **C72**: every stored relation was handed over by a call of the history, with a valid signature of its issuer, and is stored with its
times cut to whole seconds; roots come from calls of `set_root`. -/
theorem C72_provenance {ops : List Op} {db : Db} (h : History ops db) :
    (∀ r, db.Stored r → ∃ op ∈ ops, ∃ q ∈ op.offers, q.SignatureValid ∧ r = q.trunc) ∧
    ∀ pk now, (db.snapshot now).root pk → ∃ n, .setRoot pk n ∈ ops := by
  induction h with
  | init => exact ⟨fun r hr => (nomatch hr.2), fun pk now hr => (nomatch hr)⟩
  | weather fs _ ih => exact ih
  | @step ops db op _ ih =>
    constructor
    · intro r hr
      have hq : Quiet (fun a b : Db => ∀ r, b.Stored r → a.Stored r ∨ ∃ q ∈ op.offers, q.SignatureValid ∧ r = q.trunc) :=
        ⟨fun _ _ h => .inl h, fun _ _ _ h1 h2 r h => (h2 r h).elim (h1 r) .inr, fun _ _ _ h => .inl h⟩
      have := op.run_steps hq (fun now _ db r h => .inl ((Db.stored_collect now).mp h).1)
        (fun q hq hv _ db _ r h => (Db.stored_put.mp h).elim (fun e => .inr ⟨q, hq, hv, e⟩) fun h => .inl h.1)
        (fun pk n _ db r h => .inl h) db r hr
      rcases this with h | ⟨q, hq, hv, e⟩
      · obtain ⟨op', ho, h'⟩ := ih.1 r h
        exact ⟨op', by simp [ho], h'⟩
      · exact ⟨op, by simp, q, hq, hv, e⟩
    · intro pk now hr
      have hq : Quiet (fun a b : Db => ∀ row ∈ b.roots, row ∈ a.roots ∨ ∃ pk n, op = .setRoot pk n ∧ row.publicKey = keyText pk) :=
        ⟨fun _ _ h => .inl h, fun _ _ _ h1 h2 r h => (h2 r h).elim (h1 r) .inr, fun _ _ _ h => .inl h⟩
      obtain ⟨row, hrow, e⟩ := hr
      have := op.run_steps hq (fun now _ db r h => .inl h) (fun q _ _ _ db _ r h => .inl h)
        (fun pk n e db r h => ?_) db row hrow
      · rcases this with h | ⟨pk', n, rfl, e'⟩
        · obtain ⟨n, h'⟩ := ih.2 pk now ⟨row, h, e⟩
          exact ⟨n, by simp [h']⟩
        · rw [e] at e'
          obtain rfl := keyText_inj_iff.mp e'
          exact ⟨n, by simp⟩
      · rcases List.mem_append.mp h with h | h
        · exact .inl h
        · rw [List.mem_singleton] at h
          exact .inr ⟨pk, n, e, by rw [h]⟩

/-- So without a relation signed by `k` nobody can make the database contain one issued by `k`. -/
theorem C72_nothing_forged {ops : List Op} {db : Db} (h : History ops db) (k : PublicKey)
    (hk : ∀ op ∈ ops, ∀ q ∈ op.offers, q.issuedBy = k → ¬ q.SignatureValid) : ∀ r, db.Stored r → r.issuedBy ≠ k := by
  intro r hr e
  obtain ⟨op, ho, q, hq, hv, rfl⟩ := (C72_provenance h).1 r hr
  refine hk op ho q hq ?_ hv
  cases q <;> exact e

/-! ### C71 -/

/-- **C71**: what is intended: a revocation is overridden only by a trust that was signed as issued after it. -/
def C71_statement : Prop :=
  ∀ (db : Db) (r : Revocation) (t : Trust) (now : Dur), Reachable db → db.Stored (.revocation r) → t.issuedFor = r.pk →
    ∀ t', (TrustGraph.addTrust t r.revokedBy now db).2.Stored (.auth ⟨t', r.revokedBy⟩) → t'.issuedFor = r.pk →
    r.revokedAt.secs < t.issuedAt.secs

/-- **C71**, for trusts whose issue time is whole seconds (all that come through the service). -/
theorem C71_override_partial {db : Db} {r : Revocation} {t : Trust} {now : Dur} (hr : Reachable db)
    (hs : db.Stored (.revocation r)) (hw : t.issuedAt.Whole) (t' : Trust)
    (h : (TrustGraph.addTrust t r.revokedBy now db).2.Stored (.auth ⟨t', r.revokedBy⟩)) (h' : t'.issuedFor = r.pk) :
    r.revokedAt.secs < t.issuedAt.secs := by
  by_contra hc
  have hle : t.issuedAt.total ≤ r.revokedAt.total := by
    rw [UInt64.lt_iff_toNat_lt, Nat.not_lt] at hc
    have : t.issuedAt.nanos.val = 0 := by rw [show t.issuedAt.nanos = 0 from hw]; rfl
    unfold Dur.total
    omega
  have hst := C29_revocation_stays_partial hr hs (db' := (TrustGraph.addTrust t r.revokedBy now db).2)
    (.step (.addTrust t r.revokedBy now) (fun a ha hcov => by
      simp only [Op.Submits, Op.offers, List.mem_singleton, TrustRelation.auth.injEq] at ha
      obtain ⟨rfl, -⟩ := ha
      exact hle) .refl)
  exact hst.2 _ h ⟨rfl, h'⟩

end TG
