/-
Properties C10 and C12 in terms of the calls of `set_root` in a history.
-/
import Verif.Props.Provenance

namespace TG
variable [Env]

/-- The factor of a root comes from a call `set_root(pk, n)` of the history. -/
theorem History.rootFactor {ops : List Op} {db : Db} (h : History ops db) :
    ∀ pk f, db.rootFactor pk = some f → ∃ n, .setRoot pk n ∈ ops ∧ f = 16 - min 16 n := by
  induction h with
  | init => intro pk f h; cases h
  | weather fs _ ih => exact ih
  | @step ops db op _ ih =>
    intro pk f hf
    have hq : Quiet (fun a b : Db => ∀ f, b.rootFactor pk = some f → a.rootFactor pk = some f ∨
        ∃ n, op = .setRoot pk n ∧ f = 16 - min 16 n) :=
      ⟨fun _ _ h => .inl h, fun _ _ _ h1 h2 f h => (h2 f h).elim (h1 f) .inr, fun _ _ _ h => .inl h⟩
    have := op.run_steps hq (fun now _ db r h => .inl h) (fun q _ _ _ db _ r h => .inl h)
      (fun pk' n e db f h => ?_) db f hf
    · rcases this with h | ⟨n, rfl, e⟩
      · obtain ⟨n, hn, e⟩ := ih pk f h
        exact ⟨n, by simp [hn], e⟩
      · exact ⟨n, by simp, e⟩
    · unfold Db.rootFactor Db.addRoot at *
      rw [List.find?_append] at h
      rcases hfi : db.roots.find? (fun r => r.publicKey = keyText pk) with _ | row
      · rw [hfi, Option.none_or, List.find?_singleton] at h
        split at h
        · next hk =>
          obtain rfl := keyText_inj_iff.mp (of_decide_eq_true hk)
          refine .inr ⟨n, e, ?_⟩
          simp [getWeightFactor, maxWeightFactor] at h
          omega
        · cases h
      · rw [hfi] at h
        exact .inl (by rw [hfi]; exact h)

/-- **C12**, the full statement: certificates with more trusts after the root trust than every `max_chain_len` ever given for their root confer
no weight. -/
def C12_statement : Prop :=
  ∀ (ops : List Op) (db : Db) (pk : PublicKey) (now : Dur) (w : Nat) (cs : List Certificate), History ops db →
    (TrustGraph.weight pk now db).1 = .ok w → (TrustGraph.getAllCerts pk now db).1 = .ok cs → ¬ (db.snapshot now).root pk →
    (∀ root rest n, ⟨root :: rest⟩ ∈ cs → .setRoot root.issuedFor n ∈ ops → n < rest.length) → w = 0

/-- **C12** (and C10), in terms of the calls made: a weight other than 0 is that of the key itself as a root registered by `set_root(pk, n)`,
which is `2^min(16, n)`, or comes from a returned certificate whose root `r` was registered by `set_root(r, n)`: `2^min(16, n)` halved for every
trust after the root trust, but at least 1.  All these are lower bounds, too.  The full statement of C12 would have 0 instead of 1 for
certificates with more than `n` trusts after the root trust; it is refuted by `C12_max_chain_len_fails`. -/
theorem C12_weight_of_history_partial {ops : List Op} {db db' db'' : Db} {pk : PublicKey} {now : Dur} {w : Nat}
    {cs : List Certificate} (hh : History ops db) (hl : db.relations.length + 16 < 2 ^ 32)
    (hw : TrustGraph.weight pk now db = (.ok w, db')) (hc : TrustGraph.getAllCerts pk now db = (.ok cs, db'')) :
    (w ≠ 0 → (∃ n, .setRoot pk n ∈ ops ∧ w = 2 ^ min 16 n) ∨
      ∃ root rest n, ⟨root :: rest⟩ ∈ cs ∧ .setRoot root.issuedFor n ∈ ops ∧ w = 2 ^ (min 16 n - rest.length)) ∧
    (∀ n, .setRoot pk n ∈ ops → (∀ n', .setRoot pk n' ∈ ops → n' = n) → (db.snapshot now).root pk → 2 ^ min 16 n ≤ w) ∧
    ∀ root rest, ⟨root :: rest⟩ ∈ cs → ∃ n, .setRoot root.issuedFor n ∈ ops ∧ 2 ^ (min 16 n - rest.length) ≤ w := by
  have hhe := hh.reachable.healthy
  have hg := C10_weight_is_best hhe hl hw
  have hcs := (C02_complete_exactly_once hhe hc).2
  have worth : ∀ root rest, Spec.Admissible (db.snapshot now) pk ⟨root :: rest⟩ →
      ∃ n, .setRoot root.issuedFor n ∈ ops ∧ db.certWeight ⟨root :: rest⟩ = 2 ^ (min 16 n - rest.length) := by
    intro root rest ha
    obtain ⟨f, hf⟩ := Option.isSome_iff_exists.mp (Db.rootFactor_isSome.mpr (ha.linked.root root rfl).1)
    obtain ⟨n, hn, e⟩ := hh.rootFactor _ _ hf
    refine ⟨n, hn, ?_⟩
    unfold Db.certWeight
    simp only [hf]
    congr 1
    omega
  refine ⟨fun h0 => ?_, fun n hn hu hr => ?_, fun root rest hm => ?_⟩
  · rcases hg.1 with rfl | ⟨f, hf, rfl⟩ | ⟨c, ha, rfl⟩
    · exact absurd rfl h0
    · obtain ⟨n, hn, e⟩ := hh.rootFactor _ _ hf
      exact .inl ⟨n, hn, by congr 1; omega⟩
    · obtain ⟨_ | ⟨root, rest⟩⟩ := c
      · have := ha.linked.long; simp at this
      · obtain ⟨n, hn, e⟩ := worth root rest ha
        exact .inr ⟨root, rest, n, (hcs _).mpr ha, hn, e⟩
  · obtain ⟨f, hf⟩ := Option.isSome_iff_exists.mp (Db.rootFactor_isSome.mpr hr)
    obtain ⟨n', hn', e⟩ := hh.rootFactor _ _ hf
    obtain rfl := hu _ hn'
    exact hg.2 (.inr (.inl ⟨f, hf, by congr 1; omega⟩))
  · have ha := (hcs _).mp hm
    obtain ⟨n, hn, e⟩ := worth root rest ha
    exact ⟨n, hn, e ▸ hg.2 (.inr (.inr ⟨_, ha, rfl⟩))⟩

end TG
