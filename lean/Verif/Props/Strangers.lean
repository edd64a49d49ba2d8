/-
Property C114: strangers.
-/
import Verif.Props.Containment
import Verif.Props.ShutOut

namespace TG
variable [Env]

/-- Keys that the rest of the graph does not know: none of them is a root, and nobody else trusts one of them.  They may trust each other, and they may be
any number. -/
def Spec.Strangers (S : PublicKey → Prop) (db : Db) : Prop :=
  (∀ k, S k → db.rootFactor k = none) ∧ ∀ a, db.Stored (.auth a) → S a.trust.issuedFor → S a.issuedBy

/-- No certificate contains a stranger. -/
theorem Spec.Strangers.not_mem {S : PublicKey → Prop} {db : Db} (hs : Spec.Strangers S db) {now : Dur} {X : PublicKey} {c : Certificate}
    (hc : Spec.Admissible (db.snapshot now) X c) : ∀ k ∈ c.keys, ¬ S k := by
  have key : ∀ (i : Nat) t, c.chain[i]? = some t → ¬ S t.issuedFor := by
    intro i
    induction i with
    | zero =>
      intro t ht hS
      have := Db.rootFactor_isSome.mpr (hc.linked.root t ht).1
      rw [hs.1 _ hS] at this
      cases this
    | succ i ih =>
      intro t ht hS
      have hlt := (List.getElem?_eq_some_iff.mp ht).1
      have hi : c.chain[i]? = some c.chain[i] := List.getElem?_eq_getElem (by omega)
      exact ih _ hi (hs.2 _ (hc.linked.link i _ t hi ht).1 hS)
  intro k hk
  obtain ⟨t, ht, rfl⟩ := List.mem_map.mp hk
  obtain ⟨i, hi⟩ := List.mem_iff_getElem?.mp ht
  exact key i t hi

/-- What others have issued is not changed by strangers, except that it may be collected; nothing of others comes in. -/
theorem Spec.OnlyBy.others {S : PublicKey → Prop} {db db' : Db} (hl : Later (Spec.OnlyBy S) db db') :
    (∀ q, ¬ S q.issuedBy → db'.Stored q → db.Stored q) ∧ db'.roots = db.roots ∧
    ∀ r, ¬ S r.revokedBy → db.Stored (.revocation r) → db'.Stored (.revocation r) := by
  have hq : Quiet (fun s s' : Db => (∀ q, ¬ S q.issuedBy → s'.Stored q → s.Stored q) ∧ s'.roots = s.roots ∧
      ∀ r, ¬ S r.revokedBy → s.Stored (.revocation r) → s'.Stored (.revocation r)) :=
    ⟨fun _ => ⟨fun _ _ h => h, rfl, fun _ _ h => h⟩, fun _ _ _ h1 h2 => ⟨fun q hq h => h1.1 q hq (h2.1 q hq h), h2.2.1.trans h1.2.1,
      fun r hr h => h2.2.2 r hr (h1.2.2 r hr h)⟩, fun _ _ => ⟨fun _ _ h => h, rfl, fun _ _ h => h⟩⟩
  induction hl with
  | refl => exact hq.refl _
  | weather fs _ ih => exact hq.trans _ _ _ ih (hq.faults _ _)
  | @step d op hop _ ih =>
    refine hq.trans _ _ _ ih (Op.run_steps hq op ?_ ?_ ?_ d)
    · exact fun t _ d => ⟨fun q _ h => ((Db.stored_collect t).mp h).1, rfl, fun r _ h => (Db.stored_collect t).mpr ⟨h, fun _ e => (nomatch e)⟩⟩
    · intro p hp hv _ d _
      have hp' := hop.1 p ⟨hp, hv⟩
      refine ⟨fun q hq h => ?_, rfl, fun r hr h => Db.stored_put.mpr (.inr ⟨h, fun he => hr ((congrArg S he.2).mpr hp')⟩)⟩
      rcases Db.stored_put.mp h with e | h
      · rw [e, TrustRelation.trunc_issuedBy] at hq
        exact absurd hp' hq
      · exact h.1
    · exact fun pk n e => absurd e (hop.2 pk n)

theorem Spec.Strangers.later {S : PublicKey → Prop} {db db' : Db} (hs : Spec.Strangers S db) (hl : Later (Spec.OnlyBy S) db db') :
    Spec.Strangers S db' := by
  obtain ⟨h1, h2, -⟩ := Spec.OnlyBy.others hl
  refine ⟨fun k hk => (Db.rootFactor_congr h2 k).trans (hs.1 k hk), fun a ha hS => ?_⟩
  by_contra hno
  exact hno (hs.2 a (h1 _ hno ha) hS)

/-- What strangers have left behind: revocations. -/
theorem Spec.Strangers.stored {S : PublicKey → Prop} {db db' : Db} (hr : Reachable db) (hs : Spec.Strangers S db) (hl : Later (Spec.OnlyBy S) db db') :
    ∀ q, db'.Stored q → db.Stored q ∨ ∃ r, q = .revocation r ∧ S r.revokedBy := by
  intro q hq
  by_cases hS : S q.issuedBy
  · rcases q with ⟨t, k⟩ | r
    · left
      refine stored_of_weightless (S := S) hr ?_ ?_ hl t k hS hq
      · intro c now t k hop hm
        refine ⟨?_, fun _ _ e => (nomatch e)⟩
        rintro q ⟨hq, hv⟩
        rw [Op.offers, List.mem_singleton] at hq
        subst hq
        exact hop.1 _ ⟨hm, hv⟩
      · intro d hld K hK
        have hsd := hs.later hld
        refine ⟨hsd.1 K hK, fun now c hc => ?_⟩
        have hlong := hc.linked.long
        have h := List.getElem?_eq_getElem (l := c.chain) (i := c.chain.length - 1) (by omega)
        refine hsd.not_mem hc K ?_ hK
        exact List.mem_map.mpr ⟨_, List.getElem_mem _, hc.linked.target _ h⟩
    · exact .inr ⟨r, rfl, hS⟩
  · exact .inl ((Spec.OnlyBy.others hl).1 q hS hq)

/-- The same certificates are in force before and after. -/
theorem Spec.Strangers.admissible {S : PublicKey → Prop} {db db' : Db} {now : Dur} (hs : Spec.Strangers S db)
    (hl : Later (fun op => Spec.OnlyBy S op ∧ ∀ t, op.time = some t → asI64 t.secs ≤ asI64 now.secs) db db') (X : PublicKey) (c : Certificate) :
    Spec.Admissible (db'.snapshot now) X c ↔ Spec.Admissible (db.snapshot now) X c := by
  have hs' := hs.later (hl.mono fun _ h => h.1)
  obtain ⟨h1, h2⟩ := Spec.Tampered.both hl
  have hlast : ∀ {d : Db}, Spec.Strangers S d → Spec.Admissible (d.snapshot now) X c →
      ∀ (i : Nat) t, c.chain[i]? = some t → i + 1 < c.chain.length → ¬ S t.issuedFor :=
    fun hd hc i t hi _ => hd.not_mem hc _ (List.mem_map.mpr ⟨t, List.mem_of_getElem? hi, rfl⟩)
  exact ⟨fun hc => h1.admissible hc (hlast hs' hc), fun hc => h2.admissible hc (hlast hs hc)⟩

/-- **C114** at full strength: whatever strangers sign, however often and at whatever times (not after `now`) it is handed over, and whatever SQL statements
fail, it leaves nothing behind, and afterwards every answer is what it was. -/
def C114_statement : Prop :=
  ∀ (S : PublicKey → Prop) (db db' : Db) (now : Dur), Reachable db → Spec.Strangers S db →
    Later (fun op => Spec.OnlyBy S op ∧ ∀ t, op.time = some t → asI64 t.secs ≤ asI64 now.secs) db db' →
    (∀ q, db'.Stored q → db.Stored q) ∧
    (∀ X cs cs' s s', TrustGraph.getAllCerts X now db = (.ok cs, s) → TrustGraph.getAllCerts X now db' = (.ok cs', s') → cs'.Perm cs) ∧
    (∀ X rs rs' s s', TrustGraph.getRevocations X db = (.ok rs, s) → TrustGraph.getRevocations X db' = (.ok rs', s') → rs'.Perm rs) ∧
    (db.relations.length + 16 < 2 ^ 32 → db'.relations.length + 16 < 2 ^ 32 →
      (∀ X w w' s s', TrustGraph.weight X now db = (.ok w, s) → TrustGraph.weight X now db' = (.ok w', s') → w' = w) ∧
      (∀ X k w w' s s', TrustGraph.weightFrom X k now db = (.ok w, s) → TrustGraph.weightFrom X k now db' = (.ok w', s') → w' = w) ∧
      (∀ t k w w' s s', TrustGraph.addTrust t k now db = (.ok w, s) → TrustGraph.addTrust t k now db' = (.ok w', s') → w' = w))

/-- **C114**, what holds: all of it, except that revocations issued by strangers are stored and are returned by `get_revocations`; `C114_fails` (F35). -/
theorem C114_strangers_partial {S : PublicKey → Prop} {db db' : Db} {now : Dur} (hr : Reachable db) (hs : Spec.Strangers S db)
    (hl : Later (fun op => Spec.OnlyBy S op ∧ ∀ t, op.time = some t → asI64 t.secs ≤ asI64 now.secs) db db') :
    (∀ q, db'.Stored q → db.Stored q ∨ ∃ r, q = .revocation r ∧ S r.revokedBy) ∧
    (∀ X cs cs' s s', TrustGraph.getAllCerts X now db = (.ok cs, s) → TrustGraph.getAllCerts X now db' = (.ok cs', s') → cs'.Perm cs) ∧
    (∀ X rs rs' s s', TrustGraph.getRevocations X db = (.ok rs, s) → TrustGraph.getRevocations X db' = (.ok rs', s') →
      ∀ r, ¬ S r.revokedBy → (r ∈ rs' ↔ r ∈ rs)) ∧
    (db.relations.length + 16 < 2 ^ 32 → db'.relations.length + 16 < 2 ^ 32 →
      (∀ X w w' s s', TrustGraph.weight X now db = (.ok w, s) → TrustGraph.weight X now db' = (.ok w', s') → w' = w) ∧
      (∀ X k w w' s s', TrustGraph.weightFrom X k now db = (.ok w, s) → TrustGraph.weightFrom X k now db' = (.ok w', s') → w' = w) ∧
      (∀ t k w w' s s', TrustGraph.addTrust t k now db = (.ok w, s) → TrustGraph.addTrust t k now db' = (.ok w', s') → w' = w)) := by
  have hl' : Later (Spec.OnlyBy S) db db' := hl.mono fun _ h => h.1
  have hh := hr.healthy
  have hh' := (hl'.reachable hr).healthy
  have hadm := hs.admissible hl
  have hroots := (Spec.OnlyBy.others hl').2.1
  have hf : ∀ k, db'.rootFactor k = db.rootFactor k := fun k => Db.rootFactor_congr hroots k
  have hcw : ∀ c, db'.certWeight c = db.certWeight c := by
    intro c
    unfold Db.certWeight
    rcases c.chain with _ | ⟨t, ts⟩
    · rfl
    · simp only [hf]
  refine ⟨hs.stored hr hl', ?_, ?_, ?_⟩
  · intro X cs cs' s s' h h'
    obtain ⟨n1, m1⟩ := C02_complete_exactly_once hh h
    obtain ⟨n2, m2⟩ := C02_complete_exactly_once hh' h'
    exact (List.perm_ext_iff_of_nodup n2 n1).mpr fun c => by rw [m1, m2, hadm]
  · intro X rs rs' s s' h h' r hS
    obtain ⟨h1, -, h2⟩ := Spec.OnlyBy.others hl'
    rw [(C37_revocations_exact hh h).2, (C37_revocations_exact hh' h').2]
    exact ⟨fun h => ⟨h1 _ hS h.1, h.2⟩, fun h => ⟨h2 r hS h.1, h.2⟩⟩
  · intro hn hn'
    have hw : ∀ X w w' s s', TrustGraph.weight X now db = (.ok w, s) → TrustGraph.weight X now db' = (.ok w', s') → w' = w := by
      intro X w w' s s' h h'
      have e : Spec.weights db' X now = Spec.weights db X now := by
        ext x
        show _ ∨ _ ∨ _ ↔ _ ∨ _ ∨ _
        simp only [hf, hadm, hcw]
      have := weight_ok hh' hn' h'
      rw [e] at this
      exact this.unique (weight_ok hh hn h)
    refine ⟨hw, ?_, ?_⟩
    · intro X k w w' s s' h h'
      have e : Spec.weightsFrom db' X k now = Spec.weightsFrom db X k now := by
        ext x
        show _ ∨ _ ↔ _ ∨ _
        simp only [hadm, hcw]
      have := weightFrom_ok hh' hn' h'
      rw [e] at this
      exact this.unique (weightFrom_ok hh hn h)
    · intro t k w w' s s' h h'
      obtain ⟨-, x, s1, h1, e1, -⟩ := C20_returned_weight h
      obtain ⟨-, x', s1', h1', e1', -⟩ := C20_returned_weight h'
      rw [e1, e1', hw k x x' _ _ h1 h1']

/-- **C114**, what strangers can do (F35): any number of revocations are stored, whoever has signed them, and they stay whatever happens later, unless their
issuers sign trusts in the keys they have revoked. -/
theorem C114_pile_up {db : Db} (hr : Reachable db) (hf : db.NoFaults) (rs : List Revocation)
    (hv : ∀ r ∈ rs, r.verify = .ok () ∧ r.revokedAt.Whole) (hnew : ∀ r ∈ rs, ∀ q, db.Stored q → ¬ q.SamePair (.revocation r))
    (hne : rs.Pairwise fun r r' => ¬ (TrustRelation.revocation r).SamePair (.revocation r')) :
    (∀ r ∈ rs, (Op.runAll (rs.map .revoke) db).Stored (.revocation r)) ∧
    (∀ q, db.Stored q → (Op.runAll (rs.map .revoke) db).Stored q) ∧
    ∀ db', Later (fun op => ∀ a, op.Submits (.auth a) → ∀ r ∈ rs, ¬ r.Covers a) (Op.runAll (rs.map .revoke) db) db' →
      rs.length ≤ db'.relations.length ∧ ∀ r ∈ rs, ∃ r', db'.Stored (.revocation r') ∧ r'.revokedBy = r.revokedBy ∧ r'.pk = r.pk := by
  have hst : (∀ r ∈ rs, (Op.runAll (rs.map .revoke) db).Stored (.revocation r)) ∧
      (∀ q, db.Stored q → (Op.runAll (rs.map .revoke) db).Stored q) := by
    induction rs generalizing db with
    | nil => exact ⟨fun _ h => (nomatch h), fun _ h => h⟩
    | cons r rs ih =>
      obtain ⟨hr1, hr2⟩ := hv r (by simp)
      have he : (Op.revoke r).run db = db.update (.revocation r) := by
        show (TrustGraph.revoke r db).2 = _
        rw [Db.revoke_eq hr.healthy hf hr1]
      have hs := fun q => Db.stored_update_fresh (q := q) (e := .revocation r) hr.healthy hr2 (fun x hx hp => absurd hp (hnew r (by simp) x hx))
      rw [List.pairwise_cons] at hne
      obtain ⟨h1, h2⟩ := ih (db := (Op.revoke r).run db) (hr.step _) (he ▸ hf.update _) (fun r' h => hv r' (by simp [h])) (by
        intro r' hr' q hq
        rw [he] at hq
        rcases (hs q).mp hq with rfl | ⟨hq, -⟩
        · exact hne.1 r' hr'
        · exact hnew r' (by simp [hr']) q hq) hne.2
      constructor
      · intro r' hr'
        rcases List.mem_cons.mp hr' with rfl | hr'
        · exact h2 _ (he ▸ (hs _).mpr (.inl rfl))
        · exact h1 r' hr'
      · intro q hq
        exact h2 q (he ▸ (hs q).mpr (.inr ⟨hq, fun hp => hnew r (by simp) q hq hp⟩))
  refine ⟨hst.1, hst.2, fun db' hl => ?_⟩
  have hreach : Reachable (Op.runAll (rs.map .revoke) db) := hr.runAll _
  have hstay : ∀ r ∈ rs, ∃ r', db'.Stored (.revocation r') ∧ r'.revokedBy = r.revokedBy ∧ r'.pk = r.pk := by
    intro r hrm
    obtain ⟨⟨r', h1, h2, h3, -⟩, -⟩ := C29_revocation_stays_partial hreach (hst.1 r hrm) (hl.mono fun op h a ha hc => absurd hc (h a ha r hrm))
    exact ⟨r', h1, h2, h3⟩
  refine ⟨?_, hstay⟩
  have hnd : (rs.map fun r => (keyText r.pk, keyText r.revokedBy)).Nodup := by
    refine List.pairwise_map.mpr (hne.imp fun h e => h ?_)
    exact ⟨keyText_inj (Prod.ext_iff.mp e).1, keyText_inj (Prod.ext_iff.mp e).2⟩
  have hsub : (rs.map fun r => (keyText r.pk, keyText r.revokedBy)) ⊆ db'.relations.map fun row => (row.issuedFor, row.issuedBy) := by
    intro p hp
    obtain ⟨r, hrm, rfl⟩ := List.mem_map.mp hp
    obtain ⟨r', h1, h2, h3⟩ := hstay r hrm
    exact List.mem_map.mpr ⟨_, h1.2, by rw [← h2, ← h3]; rfl⟩
  simpa using (List.subperm_of_subset hnd hsub).length_le

end TG
