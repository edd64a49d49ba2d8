/-
Property C137: the queries of the library agree with each other: what is asked about a key at once is what is asked root by root, and weights are what the
certificates returned at the same time are worth.
-/
import Verif.Props.WeightFactor
import Verif.Props.NoOverflow
import Verif.Props.Robust

namespace TG
variable [Env]

omit [Env] in
theorem Outcome.pair_eq {S α : Type} {x : Outcome TrustGraphError α × S} {a : α} (h : x.1 = .ok a) : x = (.ok a, x.2) :=
  Prod.ext h rfl

/-- What the certificates returned by a query are worth. -/
theorem Db.factor_of_certs {db : Db} (hh : db.Healthy) (hf : db.NoFaults) (hn : db.relations.length + 16 < 2 ^ 32) {k : PublicKey} {now : Dur}
    {p : Certificate → Prop} {ds : List Certificate} (hds : ∀ c, c ∈ ds ↔ Spec.Admissible (db.snapshot now) k c ∧ p c) {x : Nat}
    (hx : IsGreatest (fun y => y = 0 ∨ ∃ c, Spec.Admissible (db.snapshot now) k c ∧ p c ∧ y = db.certWeight c) x) :
    ∃ o, (TrustGraph.certificatesWeightFactor ds db).1 = .ok o ∧ (o = none ↔ ds = []) ∧
      x = match o with | none => 0 | some f => getWeightFromFactor f := by
  have hshort : ∀ c ∈ ds, c.chain.length + 16 < 2 ^ 32 := fun c hc => by
    have := Db.certs_length_le hh ((Db.mem_certs_iff hh k now c).mpr ((hds c).mp hc).1)
    omega
  have h := (C111_factor_partial hh ds hshort).2.1 hf
  generalize (TrustGraph.certificatesWeightFactor ds db).1 = r at h ⊢
  cases h with
  | nothing h =>
    subst h
    refine ⟨none, rfl, by simp, ?_⟩
    rcases hx.1 with h | ⟨c, h1, h2, -⟩
    · exact h
    · exact nomatch (hds c).mpr ⟨h1, h2⟩
  | best f h least worth =>
    refine ⟨some f, rfl, ?_, ?_⟩
    · obtain ⟨c, hc, -⟩ := worth.1
      exact ⟨fun h => (nomatch h), fun h => by rw [h] at hc; exact (nomatch hc)⟩
    · show x = 2 ^ (16 - f)
      obtain ⟨c, hc, e⟩ := worth.1
      have h1 : 2 ^ (16 - f) ≤ x := hx.2 (.inr ⟨c, ((hds c).mp hc).1, ((hds c).mp hc).2, e⟩)
      refine Nat.le_antisymm ?_ h1
      rcases hx.1 with h | ⟨c', h1, h2, e'⟩
      · rw [h]; exact Nat.zero_le _
      · exact worth.2 ⟨c', (hds c').mpr ⟨h1, h2⟩, e'⟩
  | refused before after c e h fine bad =>
    have hc : c ∈ ds := by rw [h]; simp
    have hadm := ((hds c).mp hc).1
    have hlong := hadm.linked.long
    unfold Spec.flaw at bad
    rcases hch : c.chain with _ | ⟨t, ts⟩
    · rw [hch] at hlong; exact absurd hlong (by simp)
    · rw [hch] at bad
      dsimp only at bad
      have hroot := (hadm.linked.root t (by rw [hch]; rfl)).1
      rw [if_pos (Db.rootFactor_isSome.mpr hroot)] at bad
      cases bad

/-- **C137**, weights: the weight of a key is the greatest of its weight as a root and its weights through the roots. -/
theorem C137_weight_root_by_root {db : Db} (hr : Reachable db) (hf : db.NoFaults) (hn : db.relations.length + 16 < 2 ^ 32) {k : PublicKey} {now : Dur}
    {w : Nat} (hw : (TrustGraph.weight k now db).1 = .ok w) :
    IsGreatest {y | y = 0 ∨ (∃ f, db.rootFactor k = some f ∧ y = getWeightFromFactor f) ∨
      ∃ r, (db.rootFactor r).isSome ∧ (TrustGraph.weightFrom k r now db).1 = .ok y} w := by
  have hg := weight_ok hr.healthy hn (Outcome.pair_eq hw)
  constructor
  · rcases hg.1 with h | h | ⟨c, hc, e⟩
    · exact .inl h
    · exact .inr (.inl h)
    · right; right
      have hlong := hc.linked.long
      have h0 : c.chain[0]? = some c.chain[0] := List.getElem?_eq_getElem (by omega)
      have hroot := (hc.linked.root _ h0).1
      refine ⟨c.chain[0].issuedFor, Db.rootFactor_isSome.mpr hroot, ?_⟩
      obtain ⟨-, x, hx⟩ := C14_weight_queries_succeed hr hf (.inr hn) k c.chain[0].issuedFor now
      have hgx := weightFrom_ok hr.healthy hn (Outcome.pair_eq hx)
      rw [hx]
      congr 1
      refine Nat.le_antisymm (C13_weight_from_le_weight hr.healthy hn (Outcome.pair_eq hw) (Outcome.pair_eq hx)).2 ?_
      exact hgx.2 (.inr ⟨c, hc, ⟨_, List.getElem_mem _, rfl⟩, e⟩)
  · rintro y (h | h | ⟨r, -, h⟩)
    · exact hg.2 (.inl h)
    · exact hg.2 (.inr (.inl h))
    · exact (C13_weight_from_le_weight hr.healthy hn (Outcome.pair_eq hw) (Outcome.pair_eq h)).2

/-- **C137**, certificates: the certificates of a key are those that contain one of the roots, and each of them starts with one. -/
theorem C137_certs_root_by_root {db : Db} (hr : Reachable db) (hf : db.NoFaults) {k : PublicKey} {now : Dur} {cs : List Certificate}
    (hc : (TrustGraph.getAllCerts k now db).1 = .ok cs) :
    (∀ c, c ∈ cs ↔ ∃ r, (db.rootFactor r).isSome ∧ ∃ ds, (TrustGraph.getAllCertsFrom k r now db).1 = .ok ds ∧ c ∈ ds) ∧
    (∀ a ds, (TrustGraph.getAllCertsFrom k a now db).1 = .ok ds → List.Sublist ds cs) ∧
    (TrustGraph.getAllCertsFrom k k now db).1 = .ok cs := by
  have hh := hr.healthy
  obtain rfl := getAllCerts_ok hh (Outcome.pair_eq hc)
  have hfrom : ∀ a, (TrustGraph.getAllCertsFrom k a now db).1 =
      .ok ((db.certs k now).filter (fun c => c.chain.any (fun t => t.issuedFor == a))) := fun a => by
    rw [Db.getAllCertsFrom_eq hh hf k a now]
  refine ⟨fun c => ⟨fun hcs => ?_, ?_⟩, fun a ds h => ?_, ?_⟩
  · have hadm := (Db.mem_certs_iff hh k now c).mp hcs
    have hlong := hadm.linked.long
    have h0 : c.chain[0]? = some c.chain[0] := List.getElem?_eq_getElem (by omega)
    refine ⟨c.chain[0].issuedFor, Db.rootFactor_isSome.mpr (hadm.linked.root _ h0).1, _, hfrom _, ?_⟩
    exact List.mem_filter.mpr ⟨hcs, List.any_eq_true.mpr ⟨_, List.getElem_mem _, beq_self_eq_true _⟩⟩
  · rintro ⟨r, -, ds, h, hd⟩
    rw [hfrom] at h
    cases h
    exact (List.mem_filter.mp hd).1
  · rw [hfrom] at h
    cases h
    exact List.filter_sublist
  · rw [hfrom]
    congr 1
    refine List.filter_eq_self.mpr fun c hcs => ?_
    have hadm := (Db.mem_certs_iff hh k now c).mp hcs
    have hlong := hadm.linked.long
    have hl : c.chain[c.chain.length - 1]? = some c.chain[c.chain.length - 1] := List.getElem?_eq_getElem (by omega)
    exact List.any_eq_true.mpr ⟨_, List.getElem_mem _, by rw [hadm.linked.target _ hl]; exact beq_self_eq_true _⟩

/-- **C137**, weights and certificates: the weight through `a` is what `certificates_weight_factor` makes of the certificates through `a`, and the weight of a key
is this for all its certificates, or its weight as a root if that is greater. -/
theorem C137_weights_of_certs {db : Db} (hr : Reachable db) (hf : db.NoFaults) (hn : db.relations.length + 16 < 2 ^ 32) (k : PublicKey) (now : Dur) :
    (∀ a x ds, (TrustGraph.weightFrom k a now db).1 = .ok x → (TrustGraph.getAllCertsFrom k a now db).1 = .ok ds →
      ∃ o, (TrustGraph.certificatesWeightFactor ds db).1 = .ok o ∧ (o = none ↔ ds = []) ∧
        x = match o with | none => 0 | some f => getWeightFromFactor f) ∧
    ∀ w cs, (TrustGraph.weight k now db).1 = .ok w → (TrustGraph.getAllCerts k now db).1 = .ok cs →
      ∃ o, (TrustGraph.certificatesWeightFactor cs db).1 = .ok o ∧ (o = none ↔ cs = []) ∧
        w = max (match db.rootFactor k with | none => 0 | some f => getWeightFromFactor f)
          (match o with | none => 0 | some f => getWeightFromFactor f) := by
  have hh := hr.healthy
  have hfrom : ∀ a x ds, (TrustGraph.weightFrom k a now db).1 = .ok x → (TrustGraph.getAllCertsFrom k a now db).1 = .ok ds →
      ∃ o, (TrustGraph.certificatesWeightFactor ds db).1 = .ok o ∧ (o = none ↔ ds = []) ∧
        x = match o with | none => 0 | some f => getWeightFromFactor f := by
    intro a x ds hx hds
    rw [Db.getAllCertsFrom_eq hh hf k a now] at hds
    cases hds
    refine Db.factor_of_certs hh hf hn (p := fun c => ∃ t ∈ c.chain, t.issuedFor = a) (fun c => ?_) (weightFrom_ok hh hn (Outcome.pair_eq hx))
    rw [List.mem_filter, Db.mem_certs_iff hh, List.any_eq_true]
    simp only [beq_iff_eq]
  refine ⟨hfrom, fun w cs hw hcs => ?_⟩
  obtain ⟨-, x, hx⟩ := C14_weight_queries_succeed hr hf (.inr hn) k k now
  obtain ⟨o, h1, h2, h3⟩ := hfrom k x cs hx (C137_certs_root_by_root hr hf hcs).2.2
  refine ⟨o, h1, h2, ?_⟩
  rw [← h3]
  have hg := weight_ok hh hn (Outcome.pair_eq hw)
  have hgx := weightFrom_ok hh hn (Outcome.pair_eq hx)
  have hle := (C13_weight_from_le_weight hh hn (Outcome.pair_eq hw) (Outcome.pair_eq hx)).2
  refine Nat.le_antisymm ?_ (Nat.max_le.mpr ⟨?_, hle⟩)
  · rcases hg.1 with h | ⟨f, hf', e⟩ | ⟨c, hc, e⟩
    · rw [h]; exact Nat.zero_le _
    · rw [hf', e]; exact Nat.le_max_left _ _
    · refine Nat.le_trans ?_ (Nat.le_max_right _ _)
      have hlong := hc.linked.long
      have hl : c.chain[c.chain.length - 1]? = some c.chain[c.chain.length - 1] := List.getElem?_eq_getElem (by omega)
      exact hgx.2 (.inr ⟨c, hc, ⟨_, List.getElem_mem _, hc.linked.target _ hl⟩, e⟩)
  · cases hr' : db.rootFactor k with
    | none => exact Nat.zero_le _
    | some f => exact hg.2 (.inr (.inl ⟨f, hr', rfl⟩))

end TG
