/-
Property C88: `max_chain_len` limits how far trust is passed on.
-/
import Verif.Props.Updates
import Verif.Proofs.Ops

namespace TG
variable [Env]

/-- `k` is a root whose `max_chain_len` (which is `16 - f`) is not zero, or it has a certificate with fewer trusts after the root trust than the
`max_chain_len` of its root. -/
def Spec.MayDelegate (db : Db) (k : PublicKey) (now : Dur) : Prop :=
  (∃ f, db.rootFactor k = some f ∧ 0 < 16 - f) ∨
  ∃ root rest f, Spec.Admissible (db.snapshot now) k ⟨root :: rest⟩ ∧ db.rootFactor root.issuedFor = some f ∧ rest.length < 16 - f

omit [Env] in
theorem two_le_pow {n : Nat} : 2 ≤ 2 ^ n ↔ 0 < n := by
  constructor
  · intro h
    rcases n with _ | n
    · simp at h
    · omega
  · intro h
    calc 2 = 2 ^ 1 := rfl
      _ ≤ 2 ^ n := Nat.pow_le_pow_right (by decide) h

/-- The keys with weight at least 2. -/
theorem two_le_weight_iff {db db' : Db} {k : PublicKey} {now : Dur} {w : Nat} (hh : db.Healthy) (hn : db.relations.length + 16 < 2 ^ 32)
    (h : TrustGraph.weight k now db = (.ok w, db')) : 2 ≤ w ↔ Spec.MayDelegate db k now := by
  obtain ⟨hm, hu⟩ := weight_ok hh hn h
  have hcw : ∀ {root rest f}, db.rootFactor root.issuedFor = some f → db.certWeight ⟨root :: rest⟩ = 2 ^ (16 - (f + rest.length)) := by
    intro root rest f hf
    unfold Db.certWeight
    simp only [hf]
  constructor
  · intro hw
    rcases hm with rfl | ⟨f, hf, rfl⟩ | ⟨⟨ts⟩, hc, rfl⟩
    · omega
    · exact .inl ⟨f, hf, two_le_pow.mp hw⟩
    · rcases ts with _ | ⟨root, rest⟩
      · have := hc.linked.long; simp at this
      · obtain ⟨f, hf⟩ := Option.isSome_iff_exists.mp (Db.rootFactor_isSome.mpr (hc.linked.root root rfl).1)
        rw [hcw hf] at hw
        exact .inr ⟨root, rest, f, hc, hf, by have := two_le_pow.mp hw; omega⟩
  · rintro (⟨f, hf, hpos⟩ | ⟨root, rest, f, hc, hf, hlt⟩)
    · exact Nat.le_trans (two_le_pow.mpr hpos) (hu (.inr (.inl ⟨f, hf, rfl⟩)))
    · refine Nat.le_trans (two_le_pow.mpr ?_) (hu (.inr (.inr ⟨_, hc, (hcw hf).symm⟩)))
      omega

/-- **C88.** A successful `add_trust` of a trust in somebody else returns a weight other than 0 exactly if the issuer may delegate: it is a root with a
`max_chain_len` other than 0, or it has a certificate that is not yet as long as the `max_chain_len` of its root.  Otherwise nothing is stored. -/
theorem C88_delegation {db db' : Db} {t : Trust} {k : PublicKey} {now : Dur} {w : Nat} (hr : Reachable db) (hn : db.relations.length + 16 < 2 ^ 32)
    (hne : k ≠ t.issuedFor) (h : TrustGraph.addTrust t k now db = (.ok w, db')) :
    (w ≠ 0 ↔ Spec.MayDelegate db k now) ∧ (¬ Spec.MayDelegate db k now → ∀ r, db'.Stored r → db.Stored r) := by
  obtain ⟨-, wi, s1, hw, he, h0, -⟩ := C20_returned_weight h
  rw [if_neg hne] at he
  have hiff : w ≠ 0 ↔ Spec.MayDelegate db k now := by
    rw [← two_le_weight_iff hr.healthy hn hw, he]
    omega
  refine ⟨hiff, fun hno => ?_⟩
  obtain rfl : w = 0 := by
    by_contra hw
    exact hno (hiff.mp hw)
  exact (C19_zero_stores_nothing h).1

/-- What `add_trust` can store. -/
theorem addTrust_stores {db : Db} {t : Trust} {k : PublicKey} {now : Dur} {a : Auth}
    (ha : (TrustGraph.addTrust t k now db).2.Stored (.auth a)) :
    db.Stored (.auth a) ∨ (a = ⟨t.trunc, k⟩ ∧ ∃ w s, TrustGraph.weight k now db = (.ok w, s) ∧
      (if k = t.issuedFor then w else w / 2) ≠ 0) := by
  have hc : Collecting (fun a b : Db => ∀ r, b.Stored r → a.Stored r) now :=
    ⟨⟨fun _ _ h => h, fun _ _ _ h1 h2 r h => h1 r (h2 r h), fun _ _ _ h => h⟩, fun _ _ hs => ((Db.stored_collect now).mp hs).1⟩
  have hw := TrustGraph.weight_steps hc k db
  unfold TrustGraph.addTrust at ha
  rw [M.bind_run, M.lift_run] at ha
  rcases hv : t.verify k now with _ | _ | _ | _ <;> rw [hv] at ha
  case' err | panic | diverge => exact .inl ha
  rw [Outcome.mapErr_ok] at ha
  dsimp only at ha
  unfold TrustGraph.getNextWeight at ha
  rw [M.bind_run, M.bind_run] at ha
  rcases h1 : TrustGraph.weight k now db with ⟨_ | _ | _ | _, s⟩ <;> rw [h1] at hw ha
  case' err | panic | diverge => exact .inl (hw _ ha)
  rename_i w
  dsimp only at ha
  rw [show (if k = t.issuedFor then pure w else pure (w / 2) : M Db TrustGraphError Nat) = pure (if k = t.issuedFor then w else w / 2) by
    split <;> rfl] at ha
  generalize hn : (if k = t.issuedFor then w else w / 2) = n at ha
  change ((if n = 0 then pure 0 else _ : M Db TrustGraphError Nat) s).2.Stored _ at ha
  split at ha
  · exact .inl (hw _ ha)
  · have hq : Quiet (fun x y : Db => ∀ r, y.Stored r → x.Stored r ∨ r = (TrustRelation.auth ⟨t, k⟩).trunc) :=
      ⟨fun _ _ h => .inl h, fun _ _ _ h1 h2 r h => (h2 r h).elim (h1 r) .inr, fun _ _ _ h => .inl h⟩
    have := ((TrustGraph.storage_steps (updateRelation_steps hq (.auth ⟨t, k⟩)
      fun db _ r h => (Db.stored_put.mp h).elim .inr fun h => .inl h.1)).bind hq.trans
        (f := fun _ => pure n) fun _ => .pure hq.refl _) s _ ha
    rcases this with h | h
    · exact .inl (hw _ h)
    · cases h
      rw [← hn] at *
      exact .inr ⟨rfl, w, s, rfl, ‹_›⟩

/-- What it can store that is issued for somebody else. -/
theorem addTrust_stored {db : Db} {t : Trust} {k : PublicKey} {now : Dur} {a : Auth} (hne : a.issuedBy ≠ a.trust.issuedFor)
    (ha : (TrustGraph.addTrust t k now db).2.Stored (.auth a)) :
    db.Stored (.auth a) ∨ (a.issuedBy = k ∧ ∃ w s, TrustGraph.weight k now db = (.ok w, s) ∧ 2 ≤ w) := by
  rcases addTrust_stores ha with h | ⟨rfl, w, s, h1, h2⟩
  · exact .inl h
  · rw [if_neg (show k ≠ t.issuedFor from hne)] at h2
    exact .inr ⟨rfl, w, s, h1, by omega⟩

/-- The trusts of a certificate are added by calls of `add_trust`. -/
theorem addLoop_ops (now : Dur) (ts : List Trust) : ∀ (k : PublicKey) (db : Db),
    ∃ ops : List Op, (∀ op ∈ ops, ∃ t k, op = .addTrust t k now) ∧ (TrustGraph.addLoop now k ts db).2 = Op.runAll ops db := by
  induction ts with
  | nil => exact fun k db => ⟨[], by simp, rfl⟩
  | cons t ts ih =>
    intro k db
    unfold TrustGraph.addLoop
    rw [M.bind_run]
    rcases h : TrustGraph.addTrust t k now db with ⟨_ | _ | _ | _, s⟩
    case' err | panic | diverge =>
      exact ⟨[.addTrust t k now], by simp, (congrArg Prod.snd h).symm⟩
    obtain ⟨ops, h1, h2⟩ := ih t.issuedFor s
    refine ⟨.addTrust t k now :: ops, ?_, ?_⟩
    · intro op ho
      rcases List.mem_cons.mp ho with rfl | ho
      · exact ⟨_, _, rfl⟩
      · exact h1 op ho
    · show _ = Op.runAll ops (TrustGraph.addTrust t k now db).2
      rw [h]
      exact h2

theorem addTrusts_stored {now : Dur} {a : Auth} (hne : a.issuedBy ≠ a.trust.issuedFor) (ops : List Op)
    (hops : ∀ op ∈ ops, ∃ t k, op = .addTrust t k now) : ∀ {db : Db}, (Op.runAll ops db).Stored (.auth a) →
    db.Stored (.auth a) ∨ ∃ db1, Later (fun _ => True) db db1 ∧ Later (fun _ => True) db1 (Op.runAll ops db) ∧
      ∃ w s, TrustGraph.weight a.issuedBy now db1 = (.ok w, s) ∧ 2 ≤ w := by
  induction ops with
  | nil => exact fun h => .inl h
  | cons op ops ih =>
    intro db h
    rcases ih (fun o ho => hops o (.tail _ ho)) (db := op.run db) h with h' | ⟨db1, h1, h2, h3⟩
    · obtain ⟨t, k, rfl⟩ := hops op (.head _)
      rcases addTrust_stored hne h' with h' | ⟨rfl, h'⟩
      · exact .inl h'
      · exact .inr ⟨db, .refl, .runAll _ (fun _ _ => trivial) _, h'⟩
    · exact .inr ⟨db1, .trans (.step op trivial .refl) h1, h2, h3⟩

/-- **C88** over histories.  Whatever was called and whatever failed: if a trust of `a.issuedBy` in somebody else is stored, then there was a moment in
the past at which `a.issuedBy` could delegate (provided that there were not more than about 2^32 relations then). -/
theorem C88_every_trust {db : Db} (hr : Reachable db) {a : Auth} (ha : db.Stored (.auth a)) (hne : a.issuedBy ≠ a.trust.issuedFor) :
    ∃ db1 now, Reachable db1 ∧ Later (fun _ => True) db1 db ∧ (db1.relations.length + 16 < 2 ^ 32 → Spec.MayDelegate db1 a.issuedBy now) := by
  have key : ∀ {db : Db}, Reachable db → ∀ (now : Dur) (ops : List Op), (∀ op ∈ ops, ∃ t k, op = .addTrust t k now) →
      (Op.runAll ops db).Stored (.auth a) → ¬ db.Stored (.auth a) →
      ∃ db1 now, Reachable db1 ∧ Later (fun _ => True) db1 (Op.runAll ops db) ∧
        (db1.relations.length + 16 < 2 ^ 32 → Spec.MayDelegate db1 a.issuedBy now) := by
    intro db hr now ops hops h hno
    rcases addTrusts_stored hne ops hops h with h | ⟨db1, h1, h2, w, s, h3, h4⟩
    · exact absurd h hno
    · exact ⟨db1, now, h1.reachable hr, h2, fun hn => (two_le_weight_iff (h1.reachable hr).healthy hn h3).mp h4⟩
  induction hr with
  | init => nomatch ha.2
  | weather fs _ ih =>
    obtain ⟨db1, now, h1, h2, h3⟩ := ih ha
    exact ⟨db1, now, h1, .weather fs h2, h3⟩
  | @step db0 op hr0 ih =>
    by_cases h0 : db0.Stored (.auth a)
    · obtain ⟨db1, now, h1, h2, h3⟩ := ih h0
      exact ⟨db1, now, h1, .step op trivial h2, h3⟩
    · by_cases hop : ∃ ops now, (∀ op ∈ ops, ∃ t k, op = Op.addTrust t k now) ∧ op.run db0 = Op.runAll ops db0
      · obtain ⟨ops, now, ho, e⟩ := hop
        rw [e] at ha ⊢
        exact key hr0 now ops ho ha h0
      · exfalso
        have hq : Quiet (fun x y : Db => y.Stored (.auth a) → x.Stored (.auth a)) :=
          ⟨fun _ h => h, fun _ _ _ h1 h2 h => h1 (h2 h), fun _ _ h => h⟩
        refine h0 (op.run_steps hq (fun now _ db h => ((Db.stored_collect now).mp h).1) ?_ (fun pk n e db h => h) db0 ha)
        intro q hq' _ _ db _ h
        rcases Db.stored_put.mp h with h | h
        · exfalso
          cases op with
          | addTrust t k now => exact hop ⟨[.addTrust t k now], now, by simp, rfl⟩
          | add c now =>
            rcases hch : c.chain with _ | ⟨t, ts⟩
            · simp [Op.offers, hch] at hq'
            · obtain ⟨ops, h1, h2⟩ := addLoop_ops now (t :: ts) t.issuedFor db0
              refine hop ⟨ops, now, h1, ?_⟩
              show (TrustGraph.add c now db0).2 = _
              unfold TrustGraph.add
              rw [hch]
              exact h2
          | revoke r =>
            simp only [Op.offers, List.mem_singleton] at hq'
            subst hq'
            cases h
          | _ => simp [Op.offers] at hq'
        · exact h.1

end TG
