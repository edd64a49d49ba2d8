/-
Property C142: only those from whom trust leads to a key matter for it.
-/
import Verif.Props.SelfTalk
import Verif.Proofs.Machine

namespace TG
variable [Env]

/-- The keys of `S` are trusted by keys of `S` only. -/
def Spec.Closed (g : Spec.Snapshot) (S : PublicKey → Prop) : Prop := ∀ a t, g.trusted a t → S t.issuedFor → S a

/-- The calls hand over, with a valid signature, only relations about keys outside `S` (whoever signed them); they make only keys outside `S` roots and are not later than `now`. -/
def Spec.Downstream (S : PublicKey → Prop) (now : Dur) (op : Op) : Prop :=
  (∀ q, op.Submits q → ¬ S q.issuedFor) ∧ (∀ k n, op = .setRoot k n → ¬ S k) ∧ ∀ t, op.time = some t → asI64 t.secs ≤ asI64 now.secs

namespace Upstream

/-- What is said about the keys of `S` is the same, and who of them is a root. -/
structure Agree (S : PublicKey → Prop) (now : Dur) (db db' : Db) : Prop where
  trusted : ∀ k t, S t.issuedFor → ((db'.snapshot now).trusted k t ↔ (db.snapshot now).trusted k t)
  revoked : ∀ k r, r.pk = k → S k → (db'.Stored (.revocation r) ↔ db.Stored (.revocation r))
  root : ∀ k, S k → db'.rootFactor k = db.rootFactor k

theorem Agree.symm {S : PublicKey → Prop} {now : Dur} {db db' : Db} (h : Agree S now db db') : Agree S now db' db :=
  ⟨fun k t hk => (h.trusted k t hk).symm, fun k r e hk => (h.revoked k r e hk).symm, fun k hk => (h.root k hk).symm⟩

theorem Agree.of_later {S : PublicKey → Prop} {db db' : Db} {now : Dur} (hl : Later (Spec.Downstream S now) db db') : Agree S now db db' := by
  have hq : Quiet (Agree S now) := by
    refine ⟨?_, ?_, ?_⟩
    · exact fun _ => ⟨fun _ _ _ => Iff.rfl, fun _ _ _ _ => Iff.rfl, fun _ _ => rfl⟩
    · exact fun _ _ _ h1 h2 => ⟨fun k t hk => (h2.trusted k t hk).trans (h1.trusted k t hk),
        fun k r e hk => (h2.revoked k r e hk).trans (h1.revoked k r e hk), fun k hk => (h2.root k hk).trans (h1.root k hk)⟩
    · exact fun _ _ => ⟨fun _ _ _ => Iff.rfl, fun _ _ _ _ => Iff.rfl, fun _ _ => rfl⟩
  induction hl with
  | refl => exact hq.refl _
  | weather fs _ ih => exact hq.trans _ _ _ ih (hq.faults _ _)
  | @step d op hop _ ih =>
    refine hq.trans _ _ _ ih (Op.run_steps hq op ?_ ?_ ?_ d)
    · intro t ht d
      refine ⟨fun k tr _ => ?_, fun k r _ _ => ?_, fun _ _ => rfl⟩
      · show _ ∧ _ ↔ _ ∧ _
        rw [Db.stored_collect]
        refine ⟨fun h => ⟨h.1.1, h.2⟩, fun h => ⟨⟨h.1, fun a e => ?_⟩, h.2⟩⟩
        cases e
        exact lt_of_le_of_lt (hop.2.2 t ht) h.2
      · simp [Db.stored_collect]
    · intro q hq hv _ d _
      have hs := hop.1 q ⟨hq, hv⟩
      refine ⟨fun k tr hk => ?_, fun k r hr hk => ?_, fun _ _ => rfl⟩
      · show _ ∧ _ ↔ _ ∧ _
        rw [Db.stored_put]
        constructor
        · rintro ⟨h1 | h1, h2⟩
          · have e2 : tr.issuedFor = q.issuedFor := by have := congrArg TrustRelation.issuedFor h1; rwa [TrustRelation.trunc_issuedFor] at this
            exact absurd (e2 ▸ hk) hs
          · exact ⟨h1.1, h2⟩
        · rintro ⟨h1, h2⟩
          refine ⟨Or.inr ⟨h1, fun he => ?_⟩, h2⟩
          have e2 : tr.issuedFor = q.issuedFor := he.1
          exact hs (e2 ▸ hk)
      · subst hr
        rw [Db.stored_put]
        constructor
        · rintro (h1 | h1)
          · have e2 : r.pk = q.issuedFor := by have := congrArg TrustRelation.issuedFor h1; rwa [TrustRelation.trunc_issuedFor] at this
            exact absurd (e2 ▸ hk) hs
          · exact h1.1
        · intro h1
          refine Or.inr ⟨h1, fun he => ?_⟩
          have e2 : r.pk = q.issuedFor := he.1
          exact hs (e2 ▸ hk)
    · intro pk n e d
      refine ⟨fun _ _ _ => Iff.rfl, fun _ _ _ _ => Iff.rfl, fun k hk => ?_⟩
      rw [Db.rootFactor_addRoot, if_neg]
      rintro ⟨rfl, -⟩
      exact hop.2.1 _ n e hk

/-- All the keys of a certificate for a key of `S` belong to `S`. -/
theorem inside {S : PublicKey → Prop} {g : Spec.Snapshot} (hS : Spec.Closed g S) {X : PublicKey} (hX : S X) {c : Certificate} (h : Spec.Admissible g X c) :
    ∀ (d i : Nat) a, i + d + 1 = c.chain.length → c.chain[i]? = some a → S a.issuedFor := by
  intro d
  induction d with
  | zero =>
    intro i a hi ha
    obtain rfl : i = c.chain.length - 1 := by omega
    rw [h.linked.target a ha]
    exact hX
  | succ d ih =>
    intro i a hi ha
    have hlt : i + 1 < c.chain.length := by omega
    have hb := List.getElem?_eq_getElem hlt
    exact hS _ _ (h.linked.link i a _ ha hb) (ih (i + 1) _ (by omega) hb)

theorem Agree.closed {S : PublicKey → Prop} {now : Dur} {db db' : Db} (h : Agree S now db db') (hS : Spec.Closed (db.snapshot now) S) :
    Spec.Closed (db'.snapshot now) S :=
  fun a t ht hs => hS a t ((h.trusted a t hs).mp ht) hs

theorem Agree.admissible {S : PublicKey → Prop} {now : Dur} {db db' : Db} (h : Agree S now db db') (hS : Spec.Closed (db.snapshot now) S) {X : PublicKey} (hX : S X)
    {c : Certificate} (hc : Spec.Admissible (db.snapshot now) X c) : Spec.Admissible (db'.snapshot now) X c ∧ db'.certWeight c = db.certWeight c := by
  have hin : ∀ (i : Nat) a, c.chain[i]? = some a → S a.issuedFor := by
    intro i a ha
    have := (List.getElem?_eq_some_iff.mp ha).1
    exact inside hS hX hc (c.chain.length - i - 1) i a (by omega) ha
  refine ⟨⟨⟨hc.linked.long, fun t h0 => ?_, fun i x y hx hy => ?_, hc.linked.target⟩, hc.noRevisit, fun i j x y hij hx hy hne hv => ?_⟩, ?_⟩
  · obtain ⟨hr, ht⟩ := hc.linked.root t h0
    have hs := hin 0 t h0
    refine ⟨?_, (h.trusted _ _ hs).mpr ht⟩
    have := Db.rootFactor_isSome.mpr hr
    rw [← h.root _ hs] at this
    exact Db.rootFactor_isSome.mp this
  · exact (h.trusted _ _ (hin _ _ hy)).mpr (hc.linked.link i x y hx hy)
  · obtain ⟨r, h1, h2, h3⟩ := hv
    exact hc.unrevoked i j x y hij hx hy hne ⟨r, (h.revoked y.issuedFor r h3 (hin _ _ hy)).mp h1, h2, h3⟩
  · obtain ⟨_ | ⟨t, rest⟩⟩ := c
    · rfl
    · simp only [Db.certWeight]
      rw [h.root _ (hin 0 t rfl)]

end Upstream
open Upstream

/-- **C142**: whatever is said about keys outside `S`, and whichever of them become roots: the keys of `S`, trusted by keys of `S` only, keep their certificates, their weights and
their revocations. -/
theorem C142_upstream {S : PublicKey → Prop} {db db' : Db} {now : Dur} (hr : Reachable db) (hS : Spec.Closed (db.snapshot now) S) (hl : Later (Spec.Downstream S now) db db')
    {X : PublicKey} (hX : S X) :
    (∀ cs cs' s s', TrustGraph.getAllCerts X now db = (.ok cs, s) → TrustGraph.getAllCerts X now db' = (.ok cs', s') → cs'.Perm cs) ∧
    (∀ I cs cs' s s', TrustGraph.getAllCertsFrom X I now db = (.ok cs, s) → TrustGraph.getAllCertsFrom X I now db' = (.ok cs', s') → cs'.Perm cs) ∧
    (∀ rs rs' s s', TrustGraph.getRevocations X db = (.ok rs, s) → TrustGraph.getRevocations X db' = (.ok rs', s') → rs'.Perm rs) ∧
    (db.relations.length + 16 < 2 ^ 32 → db'.relations.length + 16 < 2 ^ 32 →
      (∀ w w' s s', TrustGraph.weight X now db = (.ok w, s) → TrustGraph.weight X now db' = (.ok w', s') → w' = w) ∧
      (∀ I w w' s s', TrustGraph.weightFrom X I now db = (.ok w, s) → TrustGraph.weightFrom X I now db' = (.ok w', s') → w' = w)) := by
  have hh := hr.healthy
  have hh' := (hl.reachable hr).healthy
  have ha := Agree.of_later hl
  have hS' := ha.closed hS
  have hadm : ∀ c, Spec.Admissible (db'.snapshot now) X c ↔ Spec.Admissible (db.snapshot now) X c :=
    fun c => ⟨fun h => (ha.symm.admissible hS' hX h).1, fun h => (ha.admissible hS hX h).1⟩
  have hroot := ha.root X hX
  refine ⟨?_, ?_, ?_, fun hn hn' => ⟨?_, ?_⟩⟩
  · intro cs cs' s s' h h'
    obtain ⟨h1, h2⟩ := C02_complete_exactly_once hh h
    obtain ⟨h1', h2'⟩ := C02_complete_exactly_once hh' h'
    exact (List.perm_ext_iff_of_nodup h1' h1).mpr fun c => by rw [h2, h2', hadm]
  · intro I cs cs' s s' h h'
    obtain ⟨all, d, h1, rfl⟩ := C09_from_selects_partial hh h
    obtain ⟨all', d', h1', rfl⟩ := C09_from_selects_partial hh' h'
    obtain ⟨h2, h3⟩ := C02_complete_exactly_once hh.calm h1
    obtain ⟨h2', h3'⟩ := C02_complete_exactly_once hh'.calm h1'
    exact ((List.perm_ext_iff_of_nodup h2' h2).mpr fun c => (h3' c).trans ((hadm c).trans (h3 c).symm)).filter _
  · intro rs rs' s s' h h'
    obtain ⟨h1, h2⟩ := C37_revocations_exact hh h
    obtain ⟨h1', h2'⟩ := C37_revocations_exact hh' h'
    refine (List.perm_ext_iff_of_nodup h1' h1).mpr fun r => ?_
    rw [h2, h2']
    exact ⟨fun h => ⟨(ha.revoked X r h.2 hX).mp h.1, h.2⟩, fun h => ⟨(ha.revoked X r h.2 hX).mpr h.1, h.2⟩⟩
  · intro w w' s s' h h'
    have g := weight_ok hh hn h
    have g' := weight_ok hh' hn' h'
    apply le_antisymm
    · rcases g'.1 with e | ⟨f, hf, e⟩ | ⟨c, hc, e⟩
      · rw [e]; exact Nat.zero_le _
      · exact g.2 (.inr (.inl ⟨f, hroot.symm.trans hf, e⟩))
      · exact g.2 (.inr (.inr ⟨c, (hadm c).mp hc, e.trans (ha.admissible hS hX ((hadm c).mp hc)).2⟩))
    · rcases g.1 with e | ⟨f, hf, e⟩ | ⟨c, hc, e⟩
      · rw [e]; exact Nat.zero_le _
      · exact g'.2 (.inr (.inl ⟨f, hroot.trans hf, e⟩))
      · exact g'.2 (.inr (.inr ⟨c, (hadm c).mpr hc, e.trans (ha.admissible hS hX hc).2.symm⟩))
  · intro I w w' s s' h h'
    have g := weightFrom_ok hh hn h
    have g' := weightFrom_ok hh' hn' h'
    apply le_antisymm
    · rcases g'.1 with e | ⟨c, hc, hX, e⟩
      · rw [e]; exact Nat.zero_le _
      · exact g.2 (.inr ⟨c, (hadm c).mp hc, hX, e.trans (ha.admissible hS ‹_› ((hadm c).mp hc)).2⟩)
    · rcases g.1 with e | ⟨c, hc, hX, e⟩
      · rw [e]; exact Nat.zero_le _
      · exact g'.2 (.inr ⟨c, (hadm c).mpr hc, hX, e.trans (ha.admissible hS ‹_› hc).2.symm⟩)

end TG
