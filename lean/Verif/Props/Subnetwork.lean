/-
Property C90: the trusted subnetwork of the README.
-/
import Verif.Props.Bootstrap
import Verif.Props.Weights

namespace TG
variable [LawfulEnv]

/-- The trust graph of a subnetwork: `A` is the only root and has issued itself a root trust; the only other trusts are those of `A` in the members; nothing has
been revoked. -/
structure Spec.Subnetwork (g : Spec.Snapshot) (A : PublicKey) (members : List PublicKey) : Prop where
  root : ∀ k, g.root k ↔ k = A
  self : ∃ t, g.trusted A t ∧ t.issuedFor = A
  member : ∀ k, k ≠ A → ((∃ t, g.trusted A t ∧ t.issuedFor = k) ↔ k ∈ members)
  others : ∀ k t, g.trusted k t → k = A
  unrevoked : ∀ k k', ¬ g.revoked k k'

namespace Spec.Subnetwork
variable {g : Spec.Snapshot} {A : PublicKey} {members : List PublicKey}

/-- The certificates of a subnetwork: a root trust, and a trust in a member. -/
theorem certs (h : Spec.Subnetwork g A members) {T : PublicKey} {c : Certificate} (hc : Spec.Admissible g T c) :
    T ≠ A ∧ T ∈ members ∧ ∃ t ∈ c.chain, t.issuedFor = A := by
  have hl := hc.linked.long
  have h0 : c.chain[0]? = some c.chain[0] := List.getElem?_eq_getElem (by omega)
  have h1 : c.chain[1]? = some c.chain[1] := List.getElem?_eq_getElem (by omega)
  have hA : c.chain[0].issuedFor = A := (h.root _).mp (hc.linked.root _ h0).1
  have hne : c.chain[1].issuedFor ≠ A := by
    intro e
    have := hc.noRevisit 0 1 _ _ Nat.zero_lt_one h0 h1 (hA.trans e.symm)
    omega
  have h2 : c.chain.length = 2 := by
    rcases Nat.lt_or_ge 2 c.chain.length with h' | h'
    · exact absurd (h.others _ _ (hc.linked.link 1 _ _ h1 (List.getElem?_eq_getElem h'))) hne
    · omega
  have ht : c.chain[1].issuedFor = T := hc.linked.target _ (by rw [h2]; exact h1)
  refine ⟨ht ▸ hne, ?_, _, List.getElem_mem _, hA⟩
  rw [← h.member T (ht ▸ hne), ← hA]
  exact ⟨_, hc.linked.link 0 _ _ h0 h1, ht⟩

/-- Every member has one. -/
theorem cert (h : Spec.Subnetwork g A members) {T : PublicKey} (hT : T ≠ A) (hm : T ∈ members) : ∃ c, Spec.Admissible g T c := by
  obtain ⟨t0, h0, e0⟩ := h.self
  obtain ⟨t1, h1, e1⟩ := (h.member T hT).mpr hm
  refine ⟨⟨[t0, t1]⟩, ⟨Nat.le_refl 2, ?_, ?_, ?_⟩, Spec.noRevisit_pair (by rw [e0, e1]; exact hT.symm), fun i j a b _ _ _ _ => h.unrevoked _ _⟩
  · intro t ht
    cases ht
    exact ⟨(h.root _).mpr e0, e0 ▸ h0⟩
  · intro i a b ha hb
    rcases i with _ | i
    · cases ha; cases hb
      rw [e0]; exact h1
    · simp at hb
  · intro t ht
    cases ht
    exact e1

end Spec.Subnetwork

omit [LawfulEnv] in
/-- A certificate of a key that has one is worth something. -/
theorem certWeight_pos [Env] {d : Db} {k : PublicKey} {now : Dur} {c : Certificate} (hc : Spec.Admissible (d.snapshot now) k c) : 0 < d.certWeight c := by
  obtain ⟨n, -, hn⟩ := certWeight_pow hc
  rw [hn]
  exact Nat.pow_pos (by decide)

/-- **C90** (what holds).  In a subnetwork `weight_from(T, A)` is not 0 exactly for the members `T` other than `A`; `weight(T)` is not 0 exactly for the members
and `A`. -/
theorem C90_membership_partial {db : Db} {A : PublicKey} {members : List PublicKey} {now : Dur} (hr : Reachable db)
    (hn : db.relations.length + 16 < 2 ^ 32) (h : Spec.Subnetwork (db.snapshot now) A members) (T : PublicKey) :
    (∀ w s, TrustGraph.weightFrom T A now db = (.ok w, s) → (w ≠ 0 ↔ T ≠ A ∧ T ∈ members)) ∧
    (∀ w s, TrustGraph.weight T now db = (.ok w, s) → (w ≠ 0 ↔ T = A ∨ T ∈ members)) := by
  constructor
  · intro w s hw
    obtain ⟨hm, hu⟩ := weightFrom_ok hr.healthy hn hw
    constructor
    · intro hne
      rcases hm with rfl | ⟨c, hc, -, -⟩
      · exact absurd rfl hne
      · exact ⟨(h.certs hc).1, (h.certs hc).2.1⟩
    · rintro ⟨hT, hmem⟩
      obtain ⟨c, hc⟩ := h.cert hT hmem
      have := hu (.inr ⟨c, hc, (h.certs hc).2.2, rfl⟩)
      have := certWeight_pos hc
      omega
  · intro w s hw
    have := (C11_zero_or_power_of_two hr.healthy hn hw).2
    rw [Ne, this, h.root]
    constructor
    · intro hne
      by_contra hno
      push Not at hno
      exact hne ⟨hno.1, fun c hc => hno.2 (h.certs hc).2.1⟩
    · rintro h' ⟨h1, h2⟩
      rcases h' with h' | h'
      · exact h1 h'
      · obtain ⟨c, hc⟩ := h.cert h1 h'
        exact h2 c hc

/-- The authority itself is not found to be in its subnetwork: `weight_from(A, A)` is 0. -/
theorem C90_authority_fails {db : Db} {A : PublicKey} {members : List PublicKey} {now : Dur} (hr : Reachable db)
    (hn : db.relations.length + 16 < 2 ^ 32) (h : Spec.Subnetwork (db.snapshot now) A members) {w : Nat} {s : Db}
    (hw : TrustGraph.weightFrom A A now db = (.ok w, s)) : w = 0 := by
  by_contra hne
  exact (((C90_membership_partial hr hn h A).1 w s hw).mp hne).1 rfl

/-- The steps of the README on one of the peers: trusts of `A` are put one after the other, each at some time. -/
def putAll (A : PublicKey) : List (Trust × Dur) → M Db TrustGraphError Unit
  | [] => pure ()
  | p :: ps => do
    let _ ← TrustGraph.addTrust p.1 A p.2
    putAll A ps

/-- Trusts that `A` has issued: valid, for different keys, and not expiring while they are put. -/
structure Spec.IssuedBy (A : PublicKey) (ps : List (Trust × Dur)) : Prop where
  valid : ∀ p ∈ ps, p.1.verify A p.2 = .ok ()
  whole : ∀ p ∈ ps, p.1.WholeSeconds
  live : ∀ p ∈ ps, ∀ q ∈ ps, Spec.Live p.1 q.2
  distinct : (ps.map (·.1.issuedFor)).Nodup

/-- The database while the trusts are put. -/
structure Putting (A : PublicKey) (m : Nat) (ps : List (Trust × Dur)) (d : Db) : Prop where
  healthy : d.Healthy
  noFaults : d.NoFaults
  roots : d.roots = (Db.empty.addRoot A (16 - m)).roots
  length : d.relations.length ≤ ps.length
  stored : ∀ r, d.Stored r ↔ ∃ p ∈ ps, r = .auth ⟨p.1, A⟩

theorem putAll_ok {A : PublicKey} {m : Nat} (hm : 1 ≤ m) (rest : List (Trust × Dur)) :
    ∀ (done : List (Trust × Dur)) (d : Db), Putting A m done d → Spec.IssuedBy A (done ++ rest) → (done ++ rest).length + 16 < 2 ^ 32 →
      ∃ d', putAll A rest d = (.ok (), d') ∧ Putting A m (done ++ rest) d' := by
  induction rest with
  | nil => intro done d h _ _; exact ⟨d, rfl, by rwa [List.append_nil]⟩
  | cons p rest ih =>
    intro done d h hi hn
    have hl := h.length
    have hpm : p ∈ done ++ p :: rest := by simp
    have hlen : (done ++ p :: rest).length = done.length + rest.length + 1 := by simp; omega
    obtain ⟨w, hw, hg⟩ := Db.weight_spec h.healthy h.noFaults (by omega) A p.2
    have hfac : d.rootFactor A = some (16 - m) := by
      rw [Db.rootFactor_congr h.roots A, Db.addRoot_rootFactor, if_pos rfl]
    have h2 : 2 ≤ w := by
      refine Nat.le_trans ?_ (hg.2 (.inr (.inl ⟨_, hfac, rfl⟩)))
      calc 2 = 2 ^ 1 := rfl
        _ ≤ _ := Nat.pow_le_pow_right (by decide) (by omega)
    have hadd := Db.addTrust_eq h.healthy h.noFaults (hi.valid p hpm) hw
    have hne : (if A = p.1.issuedFor then w else w / 2) ≠ 0 := by split <;> omega
    rw [if_neg hne] at hadd
    have hcol : ∀ r, (d.collect p.2).Stored r ↔ d.Stored r := by
      intro r
      rw [Db.stored_collect]
      refine ⟨fun h' => h'.1, fun h' => ⟨h', ?_⟩⟩
      rintro a rfl
      obtain ⟨q, hq, e⟩ := (h.stored _).mp h'
      cases e
      exact hi.live q (by simp [hq]) p hpm
    have hno : ∀ q ∈ done, q.1.issuedFor ≠ p.1.issuedFor := by
      intro q hq e
      have := hi.distinct
      rw [List.map_append, List.map_cons, List.nodup_append] at this
      exact this.2.2 _ (List.mem_map_of_mem hq) _ List.mem_cons_self e
    have hpair : ∀ r, d.Stored r → ¬ r.SamePair (.auth ⟨p.1, A⟩) := by
      intro r hr hp
      obtain ⟨q, hq, rfl⟩ := (h.stored _).mp hr
      exact hno q hq hp.1
    have hst : ∀ q, ((d.collect p.2).update (.auth ⟨p.1, A⟩)).Stored q ↔ q = .auth ⟨p.1, A⟩ ∨ d.Stored q := by
      intro q
      have hwhole : (TrustRelation.auth ⟨p.1, A⟩).Whole := ⟨(hi.whole p hpm).2, (hi.whole p hpm).1⟩
      rw [Db.stored_update_fresh (h.healthy.collect p.2) hwhole
        (fun r hr hp => absurd hp (hpair r ((hcol r).mp hr))), hcol]
      exact or_congr_right ⟨fun h' => h'.1, fun h' => ⟨h', hpair q h'⟩⟩
    have hput : Putting A m (done ++ [p]) ((d.collect p.2).update (.auth ⟨p.1, A⟩)) := by
      refine ⟨(h.healthy.collect _).update _, (h.noFaults.collect _).update _, ?_, ?_, ?_⟩
      · rw [Db.update_roots]; exact h.roots
      · have h1 := Db.collect_length_le d p.2
        have h2 := Db.update_length_le (db := d.collect p.2) (.auth ⟨p.1, A⟩)
        rw [List.length_append, List.length_singleton]
        omega
      · intro r
        rw [hst, h.stored]
        simp only [List.mem_append, List.mem_singleton, or_and_right, exists_or, exists_eq_left]
        exact or_comm
    have happ : done ++ p :: rest = (done ++ [p]) ++ rest := by simp
    rw [happ] at hi hn ⊢
    obtain ⟨d', h3, h4⟩ := ih (done ++ [p]) _ hput hi hn
    refine ⟨d', ?_, h4⟩
    unfold putAll
    rw [M.bind_run_ok hadd]
    exact h3

/-- **C90**: the README's steps succeed on an empty database and make such a subnetwork, as long as the trusts have not expired. -/
theorem C90_steps_partial {A : PublicKey} {m : Nat} (hm : 1 ≤ m) {ps : List (Trust × Dur)} (hi : Spec.IssuedBy A ps)
    (hself : ∃ p ∈ ps, p.1.issuedFor = A) (hn : ps.length + 16 < 2 ^ 32) :
    ∃ d, (TrustGraph.setRoot A m >>= fun _ => putAll A ps) Db.empty = (.ok (), d) ∧ d.NoFaults ∧ d.relations.length ≤ ps.length ∧ Reachable d ∧
      ∀ later, (∀ p ∈ ps, Spec.Live p.1 later) → Spec.Subnetwork (d.snapshot later) A (ps.map (·.1.issuedFor)) := by
  have hp0 : Putting A m [] (Db.empty.addRoot A (16 - m)) :=
    ⟨Reachable.init.healthy.addRoot A (by omega), rfl, rfl, Nat.le_refl 0, fun r => ⟨fun h => (nomatch h.2), fun ⟨_, h, _⟩ => (nomatch h)⟩⟩
  obtain ⟨d, h1, h2⟩ := putAll_ok hm ps [] _ hp0 (by rwa [List.nil_append]) (by rwa [List.nil_append])
  rw [List.nil_append] at h2
  have hrun : (TrustGraph.setRoot A m >>= fun _ => putAll A ps) Db.empty = (.ok (), d) := by
    rw [M.bind_run_ok (setRoot_noFaults (db := Db.empty) rfl A m)]
    exact h1
  refine ⟨d, hrun, h2.noFaults, h2.length, ?_, ?_⟩
  · have hst : Steps (fun s s' : Db => Reachable s → Reachable s') (TrustGraph.setRoot A m >>= fun _ => putAll A ps) := by
      refine Steps.bind (fun _ _ _ h1 h2 h => h2 (h1 h)) (fun db h => h.step (.setRoot A m)) fun _ => ?_
      clear hi hself hn h1 h2 hrun
      induction ps with
      | nil => exact .pure (fun _ h => h) _
      | cons p ps ih => exact Steps.bind (fun _ _ _ h1 h2 h => h2 (h1 h)) (fun db h => h.step (.addTrust p.1 A p.2)) fun _ => ih
    have := hst Db.empty Reachable.init
    rwa [hrun] at this
  intro later hlive
  have htr : ∀ k t, (d.snapshot later).trusted k t ↔ k = A ∧ ∃ p ∈ ps, p.1 = t := by
    intro k t
    show d.Stored _ ∧ _ ↔ _
    rw [h2.stored]
    constructor
    · rintro ⟨⟨p, hp, e⟩, -⟩
      cases e
      exact ⟨rfl, p, hp, rfl⟩
    · rintro ⟨rfl, p, hp, rfl⟩
      exact ⟨⟨p, hp, rfl⟩, hlive p hp⟩
  refine ⟨?_, ?_, ?_, ?_, ?_⟩
  · intro k
    show (∃ row ∈ d.roots, _) ↔ _
    rw [← Db.rootFactor_isSome, Db.rootFactor_congr h2.roots, Db.addRoot_rootFactor]
    by_cases e : k = A <;> simp [e]
  · obtain ⟨p, hp, e⟩ := hself
    exact ⟨p.1, (htr _ _).mpr ⟨rfl, p, hp, rfl⟩, e⟩
  · intro k _
    rw [List.mem_map]
    constructor
    · rintro ⟨t, ht, rfl⟩
      obtain ⟨-, p, hp, rfl⟩ := (htr _ _).mp ht
      exact ⟨p, hp, rfl⟩
    · rintro ⟨p, hp, rfl⟩
      exact ⟨p.1, (htr _ _).mpr ⟨rfl, p, hp, rfl⟩, rfl⟩
  · intro k t ht
    exact ((htr k t).mp ht).1
  · rintro k k' ⟨r, hr, -⟩
    obtain ⟨p, -, e⟩ := (h2.stored _).mp hr
    nomatch e

end TG
