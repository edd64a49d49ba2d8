/-
Property C91: permissions managed by weights.
-/
import Verif.Props.Subnetwork
import Verif.Props.Example
import Verif.Props.Depth

namespace TG
variable [LawfulEnv]

/-- **C91**, granting.  `A` is a root with a `max_chain_len` other than 0 and a root trust in force.  Then `add_trust` of a valid trust `t` by `A` succeeds, and
as long as neither has expired the key it is issued for has a weight other than 0.  (What was stored between the two keys must be older.) -/
theorem C91_grant {db : Db} {A : PublicKey} {f : Nat} {t0 t : Trust} {now : Dur} (hr : Reachable db) (hf : db.NoFaults)
    (hn : db.relations.length + 17 < 2 ^ 32) (hroot : db.rootFactor A = some f) (hlen : 0 < 16 - f)
    (hself : db.Stored (.auth ⟨t0, A⟩)) (he0 : t0.issuedFor = A) (hne : t.issuedFor ≠ A) (hl0 : Spec.Live t0 now) (hl : Spec.Live t now)
    (hv : t.verify A now = .ok ()) (hw : t.WholeSeconds)
    (hold : ∀ r, db.Stored r → r.SamePair (.auth ⟨t, A⟩) → r.Before (.auth ⟨t, A⟩)) :
    ∃ w d, TrustGraph.addTrust t A now db = (.ok w, d) ∧ w ≠ 0 ∧ d.NoFaults ∧
      ∀ later, Spec.Live t0 later → Spec.Live t later →
        ∃ w' s, TrustGraph.weight t.issuedFor later d = (.ok w', s) ∧ w' ≠ 0 := by
  obtain ⟨wA, hwA, hg⟩ := Db.weight_spec hr.healthy hf (by omega) A now
  have h2 : 2 ≤ wA := Nat.le_trans (two_le_pow.mpr hlen) (hg.2 (.inr (.inl ⟨f, hroot, rfl⟩)))
  have hadd := Db.addTrust_eq hr.healthy hf hv hwA
  have hne' : A ≠ t.issuedFor := fun h => hne h.symm
  rw [if_neg hne', if_neg (show wA / 2 ≠ 0 by omega)] at hadd
  refine ⟨_, _, hadd, by omega, (hf.collect now).update _, ?_⟩
  intro later hl0' hl'
  have hhd := (hr.healthy.collect now).update (.auth ⟨t, A⟩)
  have hwhole : (TrustRelation.auth ⟨t, A⟩).Whole := ⟨hw.2, hw.1⟩
  have hst : ∀ q, ((db.collect now).update (.auth ⟨t, A⟩)).Stored q ↔ q = .auth ⟨t, A⟩ ∨ ((db.collect now).Stored q ∧ ¬ q.SamePair (.auth ⟨t, A⟩)) :=
    fun q => Db.stored_update_fresh (hr.healthy.collect now) hwhole fun r h1 h2 => .inr (hold r ((Db.stored_collect now).mp h1).1 h2)
  have hs0 : ((db.collect now).update (.auth ⟨t, A⟩)).Stored (.auth ⟨t0, A⟩) := by
    refine (hst _).mpr (.inr ⟨(Db.stored_collect now).mpr ⟨hself, ?_⟩, ?_⟩)
    · rintro a e; cases e; exact hl0
    · rintro ⟨h', -⟩
      exact hne (h'.symm.trans he0)
  have hs1 : ((db.collect now).update (.auth ⟨t, A⟩)).Stored (.auth ⟨t, A⟩) := (hst _).mpr (.inl rfl)
  have hfac : ((db.collect now).update (.auth ⟨t, A⟩)).rootFactor A = some f := by
    rw [← hroot]
    exact Db.rootFactor_congr (by rw [Db.update_roots]; rfl) A
  have hadm : Spec.Admissible (((db.collect now).update (.auth ⟨t, A⟩)).snapshot later) t.issuedFor ⟨[t0, t]⟩ := by
    refine admissible_of_edges hhd (Nat.le_refl 2) ?_ ?_ ?_ (Spec.noRevisit_pair (by rw [he0]; exact hne')) ?_ rfl
    · intro x hx
      cases hx
      rw [he0, hfac]
      rfl
    · intro k x hk
      rcases Spec.edge_pair.mp hk with ⟨rfl, rfl⟩ | ⟨rfl, rfl⟩ <;> rw [he0]
      · exact hs0
      · exact hs1
    · intro x hx
      simp only [List.mem_cons, List.not_mem_nil, or_false] at hx
      rcases hx with rfl | rfl
      · exact hl0'
      · exact hl'
    · intro i j a b hij ha hb
      rcases j with _ | _ | j <;> first | omega | simp at hb
  have hlen' : ((db.collect now).update (.auth ⟨t, A⟩)).relations.length + 16 < 2 ^ 32 := by
    have h1 := Db.collect_length_le db now
    have h2 := Db.update_length_le (db := db.collect now) (.auth ⟨t, A⟩)
    omega
  obtain ⟨w', h3, h4⟩ := Db.weight_spec hhd ((hf.collect now).update _) hlen' t.issuedFor later
  refine ⟨w', _, h3, ?_⟩
  have h5 := h4.2 (.inr (.inr ⟨_, hadm, rfl⟩))
  have := certWeight_pos hadm
  omega

omit [LawfulEnv] in
/-- Roots appear only by `set_root`. -/
theorem Later.roots [Env] {P : PublicKey → Prop} {db db' : Db} (hl : Later (fun op => ∀ k n, op = .setRoot k n → P k) db db')
    (h : ∀ k, (db.rootFactor k).isSome → P k) : ∀ k, (db'.rootFactor k).isSome → P k := by
  induction hl with
  | refl => exact h
  | weather fs _ ih => exact ih
  | @step db' op hop _ ih =>
    have hq : Quiet fun a b : Db => (∀ k, (a.rootFactor k).isSome → P k) → ∀ k, (b.rootFactor k).isSome → P k :=
      ⟨fun _ h => h, fun _ _ _ h1 h2 h => h2 (h1 h), fun _ _ h => h⟩
    refine Op.run_steps hq op (fun _ _ _ h => h) (fun _ _ _ _ _ _ h => h) ?_ db' ih
    intro pk n e d hd k hk
    obtain ⟨row, hm, hrow⟩ := Db.rootFactor_isSome.mp hk
    rcases List.mem_append.mp hm with hm | hm
    · exact hd k (Db.rootFactor_isSome.mpr ⟨row, hm, hrow⟩)
    · rw [List.mem_singleton] at hm
      subst hm
      rw [← keyText_inj hrow]
      exact hop pk n e

/-- **C91**, ending a permission.  `A` is the only root and has revoked `T`.  Then the weight of `T` is 0, whatever happens later, until a trust of `A` in `T`
issued after the revocation, or another root, is submitted. -/
theorem C91_revoked {db db' : Db} {A T : PublicKey} {r : Revocation} {now : Dur} {w : Nat} {s : Db} (hr : Reachable db) (hne : A ≠ T)
    (hroot : ∀ k, (db.rootFactor k).isSome → k = A) (hs : db.Stored (.revocation r)) (hb : r.revokedBy = A) (hp : r.pk = T)
    (hl : Later (fun op => (∀ k n, op = .setRoot k n → k = A) ∧
      ∀ a : Auth, op.Submits (.auth a) → a.issuedBy = A → a.trust.issuedFor = T → a.trust.issuedAt.total ≤ r.revokedAt.total) db db')
    (hn : db'.relations.length + 16 < 2 ^ 32) (h : TrustGraph.weight T now db' = (.ok w, s)) : w = 0 := by
  obtain ⟨⟨r', hr', hb', hp', -⟩, -⟩ := C29_revocation_stays_partial hr hs (hl.mono fun op h a ha hc => h.2 a ha (by rw [← hb]; exact hc.1) (by rw [← hp]; exact hc.2))
  have hroots := (hl.mono fun op h => h.1).roots hroot
  have hno := Spec.not_trustedBy hne (g := db'.snapshot now) ⟨r', hr', hb'.trans hb, hp'.trans hp⟩
  refine (C11_zero_or_power_of_two (hl.reachable hr).healthy hn h).2.mpr ⟨?_, ?_⟩
  · intro h'
    exact hne (hroots T (Db.rootFactor_isSome.mpr h')).symm
  · intro c hc
    have hlong := hc.linked.long
    refine hno ⟨c, hc, _, List.getElem_mem (show 0 < c.chain.length by omega), ?_⟩
    exact hroots _ (Db.rootFactor_isSome.mpr (hc.linked.root _ (List.getElem?_eq_getElem (by omega))).1)

omit [LawfulEnv] in
/-- Without a root trust in force a root confers nothing: only roots have weight. -/
theorem C91_root_trust_needed [Env] {db : Db} {k : PublicKey} {now : Dur} {w : Nat} {s : Db} (hr : Reachable db) (hn : db.relations.length + 16 < 2 ^ 32)
    (hno : ∀ t A, db.Stored (.auth ⟨t, A⟩) → t.issuedFor = A → (db.rootFactor A).isSome → ¬ Spec.Live t now)
    (hk : db.rootFactor k = none) (h : TrustGraph.weight k now db = (.ok w, s)) : w = 0 := by
  refine (C11_zero_or_power_of_two hr.healthy hn h).2.mpr ⟨?_, ?_⟩
  · intro h'
    have := Db.rootFactor_isSome.mpr h'
    rw [hk] at this
    nomatch this
  · intro c hc
    have hl := hc.linked.long
    have h0 : c.chain[0]? = some c.chain[0] := List.getElem?_eq_getElem (by omega)
    obtain ⟨h1, h2, h3⟩ := hc.linked.root _ h0
    exact hno _ _ h2 rfl (Db.rootFactor_isSome.mpr h1) h3

end TG
