/-
Property C119: what a wrong clock does to a node.
-/
import Verif.Props.Carry
import Verif.Props.CarryAll
import Verif.Props.Robust

namespace TG
variable [Env]

/-- Between the two nothing has been added, and nothing lost but trusts that have expired by `T`. -/
structure Spec.Aged (T : Dur) (db db' : Db) : Prop where
  roots : db'.roots = db.roots
  old : ∀ r, db'.Stored r → db.Stored r
  kept : ∀ r, db.Stored r → (∀ a, r = .auth a → Spec.Live a.trust T) → db'.Stored r

theorem Spec.aged_quiet (T : Dur) : Quiet (Spec.Aged T) where
  refl _ := ⟨rfl, fun _ h => h, fun _ h _ => h⟩
  trans _ _ _ h1 h2 := ⟨h2.roots.trans h1.roots, fun r h => h1.old r (h2.old r h), fun r h hl => h2.kept r (h1.kept r h hl) hl⟩
  faults _ _ := ⟨rfl, fun _ h => h, fun _ h _ => h⟩

/-- Queries whose times are not later than `T`. -/
def Spec.QueriesUntil (T : Dur) (op : Op) : Prop := op.IsQuery ∧ ∀ t, op.time = some t → asI64 t.secs ≤ asI64 T.secs

theorem Spec.Aged.of_later {T : Dur} {db db' : Db} (hl : Later (Spec.QueriesUntil T) db db') : Spec.Aged T db db' := by
  have hq := Spec.aged_quiet T
  induction hl with
  | refl => exact hq.refl _
  | weather fs _ ih => exact hq.trans _ _ _ ih (hq.faults _ fs)
  | @step db1 op hok _ ih =>
    refine hq.trans _ _ _ ih (Op.run_steps hq op ?_ ?_ ?_ db1)
    · intro t ht d
      refine ⟨rfl, fun r h => ((Db.stored_collect t).mp h).1, fun r h hlive => (Db.stored_collect t).mpr ⟨h, fun a e => ?_⟩⟩
      exact lt_of_le_of_lt (hok.2 t ht) (hlive a e)
    · intro r hr
      exfalso
      have := hok.1
      cases op <;> simp_all [Op.offers, Op.IsQuery]
    · rintro pk n rfl
      exact absurd hok.1 (by simp [Op.IsQuery])

theorem Spec.Aged.rootFactor {T : Dur} {db db' : Db} (h : Spec.Aged T db db') (k : PublicKey) : db'.rootFactor k = db.rootFactor k :=
  Db.rootFactor_congr h.roots k

theorem Spec.Aged.revocation {T : Dur} {db db' : Db} (h : Spec.Aged T db db') (r : Revocation) :
    db'.Stored (.revocation r) ↔ db.Stored (.revocation r) :=
  ⟨h.old _, fun hr => h.kept _ hr fun _ e => nomatch e⟩

/-- **C119**, the harm: after any queries with times up to `T`, however wrong these are, the roots and the revocations are the same, nothing is returned that was
not returned before, at whatever time, and every certificate is still returned whose trusts expire after `T`; weights do not rise, and are at least what
these certificates are worth. -/
theorem C119_harm {db db' : Db} {T : Dur} (hr : Reachable db) (hl : Later (Spec.QueriesUntil T) db db') :
    (∀ k, db'.rootFactor k = db.rootFactor k) ∧
    (∀ k x y s s', TrustGraph.getRevocations k db = (.ok x, s) → TrustGraph.getRevocations k db' = (.ok y, s') → ∀ r, r ∈ y ↔ r ∈ x) ∧
    ∀ k now cs cs' s s', TrustGraph.getAllCerts k now db = (.ok cs, s) → TrustGraph.getAllCerts k now db' = (.ok cs', s') →
      (∀ c ∈ cs', c ∈ cs) ∧ (∀ c ∈ cs, (∀ t ∈ c.chain, Spec.Live t T) → c ∈ cs') ∧
      (db.relations.length + 16 < 2 ^ 32 → db'.relations.length + 16 < 2 ^ 32 → ∀ w w' s s',
        TrustGraph.weight k now db = (.ok w, s) → TrustGraph.weight k now db' = (.ok w', s') →
        w' ≤ w ∧ ∀ c ∈ cs, (∀ t ∈ c.chain, Spec.Live t T) → db.certWeight c ≤ w') := by
  have h := Spec.Aged.of_later hl
  have hh := hr.healthy
  have hh' := (hl.reachable hr).healthy
  have back : ∀ k now c, Spec.Admissible (db'.snapshot now) k c → Spec.Admissible (db.snapshot now) k c := fun k now c hc =>
    hc.fewer (fun k => (h.rootFactor k).symm) (fun k t he => h.old _ (hc.linked.edge he).1) fun r _ hr => (h.revocation r).mpr hr
  have forth : ∀ k now c, Spec.Admissible (db.snapshot now) k c → (∀ t ∈ c.chain, Spec.Live t T) → Spec.Admissible (db'.snapshot now) k c :=
    fun k now c hc hlive => hc.fewer h.rootFactor (fun k t he => h.kept _ (hc.linked.edge he).1 fun a e => by cases e; exact hlive t he.mem)
      fun r _ hr => (h.revocation r).mp hr
  refine ⟨h.rootFactor, fun k x y s s' hx hy r => ?_, fun k now cs cs' s s' hcs hcs' => ?_⟩
  · rw [(C37_revocations_exact hh' hy).2, (C37_revocations_exact hh hx).2, h.revocation]
  · have m : ∀ c, c ∈ cs ↔ Spec.Admissible (db.snapshot now) k c := (C02_complete_exactly_once hh hcs).2
    have m' : ∀ c, c ∈ cs' ↔ Spec.Admissible (db'.snapshot now) k c := (C02_complete_exactly_once hh' hcs').2
    refine ⟨fun c hc => (m c).mpr (back k now c ((m' c).mp hc)), fun c hc hlive => (m' c).mpr (forth k now c ((m c).mp hc) hlive), ?_⟩
    intro hn hn' w w' s s' hw hw'
    have g := weight_ok hh hn hw
    have g' := weight_ok hh' hn' hw'
    refine ⟨Db.weights_le h.roots.symm (fun c hc => ⟨c, back k now c hc, rfl⟩) g' g, fun c hc hlive => ?_⟩
    exact g'.2 (.inr (.inr ⟨c, forth k now c ((m c).mp hc) hlive, (Db.certWeight_congr h.roots rfl).symm⟩))

/-- Certificates that `db` returned at `asked`, each with the time at which it will be added again. -/
structure Spec.Kept (db : Db) (asked : Dur) (cs : List (Certificate × Dur)) : Prop where
  /-- `db` returned each certificate, for some key. -/
  returned : ∀ p ∈ cs, ∃ k certs s, TrustGraph.getAllCerts k asked db = (.ok certs, s) ∧ p.1 ∈ certs
  limit : ∀ p ∈ cs, Spec.WithinLimit db p.1
  /-- Nobody on a certificate has revoked somebody after them. -/
  unrevoked : ∀ p ∈ cs, Spec.Unrevoked (db.snapshot asked) p.1.chain
  /-- The trusts live until all is done. -/
  live : ∀ p ∈ cs, ∀ q ∈ cs, ∀ t ∈ p.1.chain, Spec.Live t q.2
  time : ∀ q ∈ cs, q.2.secs.toNat < 2 ^ 63

theorem Spec.Kept.bundle {db db' : Db} {T asked : Dur} {cs : List (Certificate × Dur)} (hk : Spec.Kept db asked cs) (hr : Reachable db)
    (h : Spec.Aged T db db') : Spec.Bundle db' cs := by
  have adm : ∀ p ∈ cs, ∃ k, Spec.Admissible (db.snapshot asked) k p.1 := by
    intro p hp
    obtain ⟨k, certs, s, hg, hm⟩ := hk.returned p hp
    exact ⟨k, ((C02_complete_exactly_once hr.healthy hg).2 _).mp hm⟩
  refine ⟨fun p hp q hq => ?_, fun p hp q hq k t t' he he' e => ?_⟩
  · obtain ⟨k, ha⟩ := adm p hp
    refine ⟨ha.linked.long, ?_, ?_, hk.live p hp q hq, ?_, ha.noRevisit, ?_, ?_⟩
    · intro t ht
      obtain ⟨f, hf⟩ := Option.isSome_iff_exists.mp (Db.rootFactor_isSome.mpr (ha.linked.root t ht).1)
      exact ⟨f, (h.rootFactor _).trans hf, hk.limit p hp t f ht hf⟩
    · intro k' t he
      rw [Trust.verify_iff]
      exact ⟨live_total (hk.time q hq) (hk.live p hp q hq t he.mem), hr.verified _ (ha.linked.edge he).1⟩
    · intro t ht
      obtain ⟨_, ⟨⟨h1, h2⟩, -⟩, -⟩ := ha.linked.mem ht
      exact ⟨h2, h1⟩
    · rintro i j a b hij ha' hb ⟨r, hs, e1, e2⟩
      exact hk.unrevoked p hp i j a b (by omega) ha' hb ⟨r, h.old _ hs, e1, e2⟩
    · intro k' t he r hs hp'
      exact .inl (hr.healthy.stored_unique (h.old _ hs) (ha.linked.edge he).1 hp'.1 hp'.2)
  · obtain ⟨_, ha⟩ := adm p hp
    obtain ⟨_, ha'⟩ := adm q hq
    have := hr.healthy.stored_unique (ha.linked.edge he).1 (ha'.linked.edge he').1 e rfl
    cases this
    rfl

/-- **C119**, the repair: whoever has kept the certificates that the node returned can add them again, in any order, as long as they have not really expired.
All calls succeed, and the node answers as if nothing had happened, for every key all of whose certificates have been added. -/
theorem C119_repair {db db' : Db} {T asked : Dur} {cs : List (Certificate × Dur)} (hr : Reachable db) (hl : Later (Spec.QueriesUntil T) db db')
    (hf : db'.NoFaults) (hk : Spec.Kept db asked cs) (hn : db'.relations.length + (cs.map (·.1.chain.length)).sum + 16 < 2 ^ 32) :
    ∃ db'', addAll cs db' = (.ok (), db'') ∧
      ∀ k certs certs' s s', TrustGraph.getAllCerts k asked db = (.ok certs, s) → (∀ c ∈ certs, ∃ p ∈ cs, p.1 = c) →
        TrustGraph.getAllCerts k asked db'' = (.ok certs', s') →
        (∀ c, c ∈ certs' ↔ c ∈ certs) ∧
        (db.relations.length + 16 < 2 ^ 32 → ∀ w w' s s', TrustGraph.weight k asked db = (.ok w, s) → TrustGraph.weight k asked db'' = (.ok w', s') →
          w' = w) := by
  have h := Spec.Aged.of_later hl
  have hh := hr.healthy
  have hh' := (hl.reachable hr).healthy
  obtain ⟨d, h1, h2⟩ := import_addAll hh' hf (hk.bundle hr h) hn
  have hroots : d.roots = db.roots := h2.roots.trans h.roots
  have hfac : ∀ k, d.rootFactor k = db.rootFactor k := Db.rootFactor_congr hroots
  have hold : ∀ q, d.Stored q → db.Stored q := by
    intro q hq
    rcases (h2.stored q).mp hq with ⟨p, hp, k, t, he, rfl⟩ | ⟨hs, -⟩
    · obtain ⟨k', certs, s, hg, hm⟩ := hk.returned p hp
      exact (((C02_complete_exactly_once hh hg).2 _).mp hm |>.linked.edge he).1
    · exact h.old q hs
  have hrev : ∀ r : Revocation, db.Stored (.revocation r) → d.Stored (.revocation r) := by
    intro r hs
    refine (h2.stored _).mpr (.inr ⟨(h.revocation r).mpr hs, (fun a e => absurd e (by simp)), fun p hp k t he hpair => ?_⟩)
    obtain ⟨k', certs, s, hg, hm⟩ := hk.returned p hp
    have := hh.stored_unique hs (((C02_complete_exactly_once hh hg).2 _).mp hm |>.linked.edge he).1 hpair.1 hpair.2
    cases this
  refine ⟨d, h1, fun k certs certs' s s' hg hall hg' => ?_⟩
  have adm : ∀ c, Spec.Admissible (d.snapshot asked) k c ↔ Spec.Admissible (db.snapshot asked) k c := by
    intro c
    constructor
    · intro hc
      exact hc.fewer (fun k => (hfac k).symm) (fun k t he => hold _ (hc.linked.edge he).1) fun r _ hs => hrev r hs
    · intro hc
      obtain ⟨p, hp, rfl⟩ := hall c ((C02_complete_exactly_once hh hg).2 c |>.mpr hc)
      exact hc.fewer hfac (fun k t he => (h2.stored _).mpr (.inl ⟨p, hp, k, t, he, rfl⟩)) fun r _ hs => hold _ hs
  refine ⟨fun c => ?_, fun hn0 w w' s s' hw hw' => ?_⟩
  · rw [(C02_complete_exactly_once h2.healthy hg').2, (C02_complete_exactly_once hh hg).2, adm]
  · have hlen := h2.length
    have hcw : ∀ c, d.certWeight c = db.certWeight c := fun c => Db.certWeight_congr hroots rfl
    have e : Spec.weights d k asked = Spec.weights db k asked := by
      ext v
      unfold Spec.weights
      simp only [hfac, hcw, adm]
    have := weight_ok h2.healthy (by omega) hw'
    rw [e] at this
    exact this.unique (weight_ok hh hn0 hw)

end TG
