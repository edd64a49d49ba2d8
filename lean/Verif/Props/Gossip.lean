/-
Property C110: nodes that have been told the same agree.
-/
import Verif.Spec.Gossip
import Verif.Props.Machine
import Verif.Props.Provenance
import Verif.Props.Containment

namespace TG
variable [Env]

/-- The trusts of the collection are live as the database and `verify` see it. -/
theorem Spec.Live.verify {a : Auth} {now : Dur} (hnow : now.secs.toNat < 2 ^ 63) (hl : Spec.Live a.trust now)
    (hv : (TrustRelation.auth a).SignatureValid) : a.trust.verify a.issuedBy now = .ok () := by
  refine Trust.verify_iff.mpr ⟨?_, hv⟩
  unfold Spec.Live at hl
  rw [asI64_of_lt hnow] at hl
  have h : now.secs.toNat < a.trust.expiresAt.secs.toNat := by
    by_cases h : a.trust.expiresAt.secs.toNat < 2 ^ 63
    · rw [asI64_of_lt h] at hl
      omega
    · omega
  have h2 := now.nanos.isLt
  unfold Dur.total
  omega

/-- A settled node, as a state of the reference machine. -/
structure Spec.World.Still (msgs : List TrustRelation) (now : Dur) (w : Spec.World) : Prop where
  auth : ∀ a, .auth a ∈ msgs → a.trust.verify a.issuedBy now = .ok () → ∃ x, (w.collect now).Weight a.issuedBy x ∧
    ((if a.issuedBy = a.trust.issuedFor then x else x / 2) = 0 ∧ w = w.collect now ∨
      (if a.issuedBy = a.trust.issuedFor then x else x / 2) ≠ 0 ∧ w = (w.collect now).update (.auth a))
  revocation : ∀ r, .revocation r ∈ msgs → r.verify = .ok () → w = w.update (.revocation r)
  origin : ∀ a b q, w.relation a b = some q → ∃ m ∈ msgs, m.SignatureValid ∧ q = m.trunc ∧ m.issuedBy = a ∧ m.issuedFor = b

theorem Db.world_congr {db db' : Db} (h1 : db'.relations = db.relations) (h2 : db'.roots = db.roots) : db'.world = db.world := by
  cases db; cases db'
  dsimp only at h1 h2
  subst h1 h2
  rfl

theorem Spec.Settled.still {msgs : List TrustRelation} {now : Dur} {db : Db} (ht : Spec.Told msgs db) (hs : Spec.Settled msgs now db)
    (hf : db.NoFaults) (hn : db.relations.length + 16 < 2 ^ 32) : db.world.Still msgs now := by
  obtain ⟨ops, hist, hops⟩ := ht
  have hh := hist.reachable.healthy
  refine ⟨fun a ha hv => ?_, fun r hr hv => ?_, fun a b q hq => ?_⟩
  · obtain ⟨x, hx, hg⟩ := Db.weight_spec hh hf hn a.issuedBy now
    have he := hs _ ha
    change (TrustGraph.addTrust a.trust a.issuedBy now db).2.relations = _ at he
    rw [Db.addTrust_eq hh hf hv hx] at he
    refine ⟨x, (hh.weight_iff now _ x).mpr hg, ?_⟩
    dsimp only at he
    generalize (if a.issuedBy = a.trust.issuedFor then x else x / 2) = y at he ⊢
    split at he
    · left
      refine ⟨‹_›, ?_⟩
      rw [← hh.world_collect]
      exact (Db.world_congr he rfl).symm
    · right
      refine ⟨‹_›, ?_⟩
      rw [← hh.world_collect, ← (hh.collect now).world_update]
      exact (Db.world_congr he (Db.update_roots _)).symm
  · have he := hs _ hr
    change (TrustGraph.revoke r db).2.relations = _ at he
    rw [Db.revoke_eq hh hf hv] at he
    rw [← hh.world_update]
    exact (Db.world_congr he (Db.update_roots _)).symm
  · obtain ⟨h1, h2, h3⟩ := hh.world_relation.mp hq
    obtain ⟨op, ho, m, hm, hv, rfl⟩ := (C72_provenance hist).1 q h1
    rw [TrustRelation.trunc_issuedBy] at h2
    rw [TrustRelation.trunc_issuedFor] at h3
    exact ⟨m, hops op ho m ⟨hm, hv⟩, hv, rfl, h2, h3⟩

namespace Spec.World
variable {msgs : List TrustRelation} {now : Dur} {w w' : Spec.World}

/-- The relation is not an expired trust. -/
def _root_.TG.TrustRelation.LiveAt (now : Dur) (q : TrustRelation) : Prop := ∀ x, q = .auth x → Spec.Live x.trust now

theorem _root_.TG.TrustRelation.LiveAt.of_trunc {q : TrustRelation} (h : q.trunc.LiveAt now) : q.LiveAt now := by
  intro x e
  subst e
  exact (h { x with trust := x.trust.trunc } rfl :)

/-- If some message is a trust that counts now, a settled node has no expired trusts. -/
theorem Still.collected (h : w.Still msgs now) {a : Auth} (ha : .auth a ∈ msgs) (hv : a.trust.verify a.issuedBy now = .ok ())
    (hl : Spec.Live a.trust now) : w.collect now = w := by
  obtain ⟨x, -, ⟨-, e⟩ | ⟨-, e⟩⟩ := h.auth a ha hv
  · exact e.symm
  · refine Spec.World.ext' (fun k => rfl) fun b c q => ?_
    rw [collect_relation]
    refine ⟨fun h => h.1, fun hq => ⟨hq, ?_⟩⟩
    rw [e] at hq
    unfold Spec.World.update at hq
    dsimp only at hq
    split at hq
    · cases hq
      rintro y hy
      cases hy
      exact hl
    · exact (collect_relation.mp hq).2

/-- What `a` says about `b` is heard. -/
def Heard (w : Spec.World) (a b : PublicKey) : Prop := ∀ x, w.Weight a x → (if a = b then x else x / 2) ≠ 0

/-- A settled node knows something at least as new as each message of a key that is heard. -/
theorem Still.knows (h : w.Still msgs now) (hc : w.collect now = w) (hnow : now.secs.toNat < 2 ^ 63) {m : TrustRelation} (hm : m ∈ msgs)
    (hv : m.SignatureValid) (hl : m.LiveAt now) (hw : w.Heard m.issuedBy m.issuedFor) :
    ∃ q, w.relation m.issuedBy m.issuedFor = some q ∧ m.issuedAt.secs.toNat ≤ q.issuedAt.secs.toNat := by
  have hu : w = w.update m := by
    cases m with
    | auth a =>
      obtain ⟨x, hx, ⟨h0, -⟩ | ⟨-, e⟩⟩ := h.auth a hm ((hl a rfl).verify hnow hv)
      · rw [hc] at hx
        exact absurd h0 (hw x hx)
      · rw [hc] at e
        exact e
    | revocation r => exact h.revocation r hm (Outcome.mapErr_eq_ok.mpr hv)
  by_cases hnew : ∀ q, w.relation m.issuedBy m.issuedFor = some q → q.issuedAt.total < m.issuedAt.total
  · refine ⟨m.trunc, ?_, ?_⟩
    · rw [hu]
      unfold Spec.World.update
      dsimp only
      rw [if_pos ⟨rfl, rfl, hnew⟩]
    · rw [TrustRelation.trunc_issuedAt]
      exact le_refl _
  · push Not at hnew
    obtain ⟨q, hq, hle⟩ := hnew
    refine ⟨q, hq, ?_⟩
    have h1 := q.issuedAt.nanos.isLt
    unfold Dur.total at hle
    omega

/-- Two settled nodes know the same about what a key says that both hear. -/
theorem Still.same (h : w.Still msgs now) (h' : w'.Still msgs now) (hc : w.collect now = w) (hc' : w'.collect now = w')
    (hnow : now.secs.toNat < 2 ^ 63) (hdiff : ∀ q ∈ msgs, ∀ r ∈ msgs, q.SamePair r → q.issuedAt.secs = r.issuedAt.secs → q = r)
    {a b : PublicKey} (hw : w.Heard a b) (hw' : w'.Heard a b) : w.relation a b = w'.relation a b := by
  have key : ∀ {w w' : Spec.World}, w.Still msgs now → w'.Still msgs now → w.collect now = w → w'.collect now = w' → w.Heard a b →
      w'.Heard a b → ∀ q, w.relation a b = some q → w'.relation a b = some q := by
    intro w w' h h' hc hc' hw hw' q hq
    obtain ⟨m, hm, hv, rfl, rfl, rfl⟩ := h.origin a b q hq
    have hl : m.LiveAt now := by
      rw [← hc] at hq
      exact TrustRelation.LiveAt.of_trunc (collect_relation.mp hq).2
    obtain ⟨q', hq', hle⟩ := h'.knows hc' hnow hm hv hl hw'
    obtain ⟨m', hm', hv', rfl, e1, e2⟩ := h'.origin _ _ q' hq'
    have hl' : m'.LiveAt now := by
      rw [← hc'] at hq'
      exact TrustRelation.LiveAt.of_trunc (collect_relation.mp hq').2
    obtain ⟨q2, hq2, hle2⟩ := h.knows hc hnow hm' hv' hl' (by rw [e1, e2]; exact hw)
    rw [e1, e2, hq] at hq2
    cases hq2
    rw [TrustRelation.trunc_issuedAt] at hle hle2
    have : m = m' := hdiff m hm m' hm' ⟨e2.symm, e1.symm⟩ (UInt64.toNat_inj.mp (le_antisymm hle hle2))
    rw [this]
    rw [this] at hq'
    exact hq'
  exact Option.ext fun q => ⟨key h h' hc hc' hw hw' q, key h' h hc' hc hw' hw q⟩

/-- A certificate is one of both worlds if they know the same about what its keys say, but for the last. -/
theorem transfer {k : PublicKey} {c : Certificate} (hr : ∀ k, w.roots k = w'.roots k) (ha : Spec.Admissible w.graph k c)
    (hu : Spec.Unrevoked w.graph c.chain)
    (hs : ∀ (p : Nat) t, p + 1 < c.chain.length → c.chain[p]? = some t → ∀ b, w.relation t.issuedFor b = w'.relation t.issuedFor b) :
    Spec.Admissible w'.graph k c ∧ Spec.Unrevoked w'.graph c.chain := by
  have hu' : Spec.Unrevoked w'.graph c.chain := by
    rintro p q a b hpq hpa hqb ⟨r, hrv⟩
    have hq : q < c.chain.length := (List.getElem?_eq_some_iff.mp hqb).1
    rw [← hs p a (by omega) hpa] at hrv
    exact hu p q a b hpq hpa hqb ⟨r, hrv⟩
  refine ⟨⟨⟨ha.linked.long, fun t ht => ?_, fun i a b hia hib => ?_, ha.linked.target⟩, ha.noRevisit,
    fun p q a b hpq hpa hqb _ => hu' p q a b hpq hpa hqb⟩, hu'⟩
  · obtain ⟨h1, h2⟩ := ha.linked.root t ht
    refine ⟨?_, ?_⟩
    · change (w'.roots t.issuedFor).isSome
      rw [← hr]
      exact h1
    · change w'.relation t.issuedFor t.issuedFor = some _
      rw [← hs 0 t (by have := ha.linked.long; omega) ht]
      exact h2
  · have hi : i + 1 < c.chain.length := (List.getElem?_eq_some_iff.mp hib).1
    have h2 := ha.linked.link i a b hia hib
    change w'.relation a.issuedFor b.issuedFor = some _
    rw [← hs i a hi hia]
    exact h2

/-- A key that is not the last of a certificate in order is heard. -/
theorem heard_of {c : Certificate} {root : Trust} {i n : Nat} {t : Trust} (h0 : c.chain[0]? = some root) (ht : c.chain[i]? = some t)
    (hn : w.roots root.issuedFor = some n) (hi : i < n)
    (hpre : 1 ≤ i → Spec.Admissible w.graph t.issuedFor ⟨c.chain.take (i + 1)⟩) (b : PublicKey) : w.Heard t.issuedFor b := by
  intro x hx
  have hle : 2 ^ (n - i) ≤ x := by
    rcases Nat.eq_zero_or_pos i with rfl | hpos
    · rw [ht] at h0
      cases h0
      exact hx.2 (.inr (.inl ⟨n, hn, rfl⟩))
    · refine hx.2 (.inr (.inr ⟨root, (c.chain.take (i + 1)).tail, n, ?_, trivial, hn, ?_⟩))
      · have e : root :: (c.chain.take (i + 1)).tail = c.chain.take (i + 1) := by
          rcases hcc : c.chain with _ | ⟨r, rest⟩
          · rw [hcc] at h0; cases h0
          · rw [hcc] at h0; cases h0; rfl
        rw [e]
        exact hpre hpos
      · have hlt : i < c.chain.length := (List.getElem?_eq_some_iff.mp ht).1
        rw [List.length_tail, List.length_take]
        congr 2
        omega
  have h2 : 2 ≤ 2 ^ (n - i) := by
    calc 2 = 2 ^ 1 := rfl
    _ ≤ _ := Nat.pow_le_pow_right (by decide) (by omega)
  split <;> omega

/-- Settled nodes with the same roots have the same certificates in order. -/
theorem Still.agree (h : w.Still msgs now) (h' : w'.Still msgs now) (hr : ∀ k, w.roots k = w'.roots k)
    (hnow : now.secs.toNat < 2 ^ 63) (hdiff : ∀ q ∈ msgs, ∀ r ∈ msgs, q.SamePair r → q.issuedAt.secs = r.issuedAt.secs → q = r)
    {k : PublicKey} {c : Certificate} (ha : Spec.Admissible (w.collect now).graph k c) (hu : Spec.Unrevoked (w.collect now).graph c.chain)
    (hlen : ∀ t n, c.chain[0]? = some t → w.roots t.issuedFor = some n → c.chain.length ≤ n + 1) :
    Spec.Admissible (w'.collect now).graph k c ∧ Spec.Unrevoked (w'.collect now).graph c.chain := by
  have hlong := ha.linked.long
  have h0 : c.chain[0]? = some c.chain[0] := List.getElem?_eq_getElem (by omega)
  obtain ⟨hr0, ht0⟩ := ha.linked.root _ h0
  obtain ⟨n, hn⟩ := Option.isSome_iff_exists.mp hr0
  replace hn : w.roots c.chain[0].issuedFor = some n := hn
  have hle := hlen _ n h0 hn
  -- the root's own trust is a message that counts
  change (w.collect now).relation _ _ = some _ at ht0
  obtain ⟨hrel, hl0⟩ := collect_relation.mp ht0
  obtain ⟨m, hm, hv, e, -, -⟩ := h.origin _ _ _ hrel
  have hlm : m.LiveAt now := TrustRelation.LiveAt.of_trunc (by rw [← e]; exact hl0)
  obtain ⟨a, rfl⟩ : ∃ a, m = .auth a := by
    cases m with
    | auth a => exact ⟨a, rfl⟩
    | revocation r => cases e
  have hva := (hlm a rfl).verify hnow hv
  have hc := h.collected hm hva (hlm a rfl)
  have hc' := h'.collected hm hva (hlm a rfl)
  rw [hc] at ha hu
  rw [hc']
  have hpre : ∀ (j : Nat) t, c.chain[j]? = some t → 1 ≤ j → Spec.Admissible w.graph t.issuedFor ⟨c.chain.take (j + 1)⟩ :=
    fun j t ht hj => ha.upTo ht hj fun p x hp hx _ => hu p j x t hp hx ht
  have hget : ∀ (i j : Nat) t, (c.chain.take (i + 1))[j]? = some t → c.chain[j]? = some t := by
    intro i j t hj
    rw [List.getElem?_take] at hj
    split at hj
    · exact hj
    · cases hj
  refine transfer hr ha hu ?_
  intro p
  induction p using Nat.strong_induction_on with
  | _ p ih =>
    intro t hp ht b
    refine h.same h' hc hc' hnow hdiff (heard_of h0 ht hn (by omega) (hpre p t ht) b) (heard_of h0 ht (by rw [← hr]; exact hn) (by omega) (fun hpos => ?_) b)
    refine (transfer hr (hpre p t ht hpos) (fun i j x y hij hi hj => hu i j x y hij (hget p i x hi) (hget p j y hj)) fun q x hq hx => ?_).1
    dsimp only at hq hx
    rw [List.length_take] at hq
    exact ih q (by omega) x (by omega) (hget p q x hx)

end Spec.World

/-! ### C110 -/

/-- **C110**: what is intended: nodes with the same roots that have been told the same, in whatever order, give every key the same weight and the same
certificates. -/
def C110_statement : Prop :=
  ∀ (msgs : List TrustRelation) (now : Dur) (A B : Db), A.NoFaults → B.NoFaults → (∀ k, A.rootFactor k = B.rootFactor k) →
    Spec.Told msgs A → Spec.Settled msgs now A → Spec.Told msgs B → Spec.Settled msgs now B → ∀ k,
    (TrustGraph.weight k now A).1 = (TrustGraph.weight k now B).1 ∧
    ∀ cs cs' s s', TrustGraph.getAllCerts k now A = (.ok cs, s) → TrustGraph.getAllCerts k now B = (.ok cs', s') → ∀ c, c ∈ cs ↔ c ∈ cs'

section
variable {msgs : List TrustRelation} {now : Dur} {A B : Db} (hfA : A.NoFaults) (hfB : B.NoFaults)
  (hnA : A.relations.length + 16 < 2 ^ 32) (hnB : B.relations.length + 16 < 2 ^ 32) (hroots : ∀ k, A.rootFactor k = B.rootFactor k)
  (htA : Spec.Told msgs A) (hsA : Spec.Settled msgs now A) (htB : Spec.Told msgs B) (hsB : Spec.Settled msgs now B)
  (hnow : now.secs.toNat < 2 ^ 63) (hdiff : ∀ q ∈ msgs, ∀ r ∈ msgs, q.SamePair r → q.issuedAt.secs = r.issuedAt.secs → q = r)
include hfA hfB hnA hnB hroots htA hsA htB hsB hnow hdiff

theorem Spec.Settled.agree {k : PublicKey} {c : Certificate} (hc : Spec.Admissible (A.snapshot now) k c) (ho : Spec.InOrder A now c) :
    Spec.Admissible (B.snapshot now) k c ∧ Spec.InOrder B now c := by
  have hhA : A.Healthy := htA.elim fun _ h => h.1.reachable.healthy
  have hhB : B.Healthy := htB.elim fun _ h => h.1.reachable.healthy
  obtain ⟨hu, hl⟩ := ho
  rw [hhA.snapshot_eq] at hc hu
  have := (hsA.still htA hfA hnA).agree (hsB.still htB hfB hnB) (fun k => congrArg (Option.map (16 - ·)) (hroots k)) hnow hdiff hc hu
    (fun t n ht hn => by
      obtain ⟨f, hf, rfl⟩ := Option.map_eq_some_iff.mp hn
      exact hl t f ht hf)
  rw [← hhB.snapshot_eq] at this
  exact ⟨this.1, this.2, fun t f ht hf => hl t f ht (by rw [hroots]; exact hf)⟩

/-- **C110**, certificates: what one node returns, the other returns as well, as far as certificates in order are concerned.  Relations of the same pair of
keys in the same second are excluded (F21), and so are times from 2^63 on.  In full, all certificates would be the same. -/
theorem C110_certificates_partial {k : PublicKey} {cs cs' : List Certificate} {s s' : Db} (h : TrustGraph.getAllCerts k now A = (.ok cs, s))
    (h' : TrustGraph.getAllCerts k now B = (.ok cs', s')) (c : Certificate) :
    c ∈ cs ∧ Spec.InOrder A now c ↔ c ∈ cs' ∧ Spec.InOrder B now c := by
  have hhA : A.Healthy := htA.elim fun _ h => h.1.reachable.healthy
  have hhB : B.Healthy := htB.elim fun _ h => h.1.reachable.healthy
  rw [getAllCerts_ok hhA h, getAllCerts_ok hhB h', Db.mem_certs_iff hhA, Db.mem_certs_iff hhB]
  exact ⟨fun h => Spec.Settled.agree hfA hfB hnA hnB hroots htA hsA htB hsB hnow hdiff h.1 h.2,
    fun h => Spec.Settled.agree hfB hfA hnB hnA (fun k => (hroots k).symm) htB hsB htA hsA hnow hdiff h.1 h.2⟩

/-- **C110**, weights: a key all of whose certificates on the two nodes are in order has the same weight on both.  In full, every key would. -/
theorem C110_weight_partial {k : PublicKey} (hA : ∀ c, Spec.Admissible (A.snapshot now) k c → Spec.InOrder A now c)
    (hB : ∀ c, Spec.Admissible (B.snapshot now) k c → Spec.InOrder B now c) :
    (TrustGraph.weight k now A).1 = (TrustGraph.weight k now B).1 := by
  have hhA : A.Healthy := htA.elim fun _ h => h.1.reachable.healthy
  have hhB : B.Healthy := htB.elim fun _ h => h.1.reachable.healthy
  obtain ⟨x, hx, hgx⟩ := Db.weight_spec hhA hfA hnA k now
  obtain ⟨y, hy, hgy⟩ := Db.weight_spec hhB hfB hnB k now
  have hcw : ∀ c, A.certWeight c = B.certWeight c := by
    intro c
    unfold Db.certWeight
    simp only [hroots]
  have e : Spec.weights A k now = Spec.weights B k now := by
    ext v
    refine or_congr Iff.rfl (or_congr (by rw [hroots]) ?_)
    constructor
    · rintro ⟨c, hc, rfl⟩
      exact ⟨c, (Spec.Settled.agree hfA hfB hnA hnB hroots htA hsA htB hsB hnow hdiff hc (hA c hc)).1, hcw c⟩
    · rintro ⟨c, hc, rfl⟩
      exact ⟨c, (Spec.Settled.agree hfB hfA hnB hnA (fun k => (hroots k).symm) htB hsB htA hsA hnow hdiff hc (hB c hc)).1, (hcw c).symm⟩
  rw [hx, hy]
  rw [e] at hgx
  rw [hgx.unique hgy]

end

/-! Telling everything again and again settles. -/

namespace Db
variable {msgs : List TrustRelation} {now : Dur} {db d : Db}

theorem collect_eq_self (hh : d.Healthy) (hl : ∀ q, d.Stored q → q.LiveAt now) : d.collect now = d := by
  unfold collect
  have : d.relations.filter (fun r => ¬ (r.expiresAt ≤ asI64 now.secs ∧ r.relationType = authType)) = d.relations := by
    rw [List.filter_eq_self]
    intro row hrow
    obtain ⟨q, hw, rfl⟩ := hh.rows row hrow
    have := hl q ⟨hw, hrow⟩
    simp only [not_and, decide_eq_true_eq]
    cases q with
    | auth a =>
      intro hle
      exact absurd hle (Int.not_le.mpr (this a rfl))
    | revocation r =>
      intro _ e
      exact absurd e (by show ¬ revocationType = authType; decide)
  rw [this]

/-- The node knows something about the pair of keys that is at least as new as the message. -/
def Covers (d : Db) (m : TrustRelation) : Prop := ∃ q, d.Stored q ∧ q.SamePair m ∧ m.issuedAt.total ≤ q.issuedAt.total

theorem Covers.not_newer (hh : d.Healthy) {m : TrustRelation} (h : d.Covers m) : ¬ d.Newer m := by
  obtain ⟨q, hs, hp, hle⟩ := h
  intro hn
  have := Dur.lt_iff.mp (hh.newer_iff.mp hn q hs hp.1 hp.2)
  omega

/-- A message changes nothing, or is new and replaces what is known about its pair of keys. -/
theorem tell_cases (hh : d.Healthy) (hf : d.NoFaults) (hn : d.relations.length + 16 < 2 ^ 32) (hl : ∀ q, d.Stored q → q.LiveAt now)
    (m : TrustRelation) : (m.tell now).run d = d ∨ (d.Newer m ∧ (m.tell now).run d = d.put m) := by
  have hupd : d.update m = d ∨ (d.Newer m ∧ d.update m = d.put m) := by
    unfold Db.update
    split
    · exact .inr ⟨‹_›, rfl⟩
    · exact .inl rfl
  cases m with
  | auth a =>
    show (TrustGraph.addTrust a.trust a.issuedBy now d).2 = d ∨ (_ ∧ (TrustGraph.addTrust a.trust a.issuedBy now d).2 = _)
    rcases Trust.verify_cases a.trust a.issuedBy now with hv | ⟨e, hv⟩
    · obtain ⟨x, hx, -⟩ := Db.weight_spec hh hf hn a.issuedBy now
      rw [Db.addTrust_eq hh hf hv hx, collect_eq_self hh hl]
      dsimp only
      generalize (if a.issuedBy = a.trust.issuedFor then x else x / 2) = y
      split
      · exact .inl rfl
      · exact hupd
    · left
      unfold TrustGraph.addTrust
      rw [hv]; rfl
  | revocation r =>
    show (TrustGraph.revoke r d).2 = d ∨ (_ ∧ (TrustGraph.revoke r d).2 = _)
    rcases Revocation.verify_cases r with hv | ⟨e, hv⟩
    · rw [Db.revoke_eq hh hf hv]
      exact hupd
    · left
      unfold TrustGraph.revoke
      rw [hv]; rfl

open Classical in
/-- How many of the messages are covered. -/
noncomputable def covered (msgs : List TrustRelation) (d : Db) : Nat := msgs.countP (fun m => d.Covers m)

theorem put_covers {m m' : TrustRelation} (hh : d.Healthy) (hw : m.Whole) (hn : d.Newer m) (h : d.Covers m') : (d.put m).Covers m' := by
  obtain ⟨q, hs, hp, hle⟩ := h
  by_cases he : q.SamePair m
  · refine ⟨m, stored_put.mpr (.inl hw.trunc_eq.symm), ⟨he.1.symm.trans hp.1, he.2.symm.trans hp.2⟩, ?_⟩
    have := Dur.lt_iff.mp (hh.newer_iff.mp hn q hs he.1 he.2)
    omega
  · exact ⟨q, stored_put.mpr (.inr ⟨hs, he⟩), hp, hle⟩

theorem put_covered {m : TrustRelation} (hh : d.Healthy) (hw : m.Whole) (hn : d.Newer m) (hm : m ∈ msgs) :
    covered msgs d < covered msgs (d.put m) := by
  classical
  have hmono : ∀ l : List TrustRelation, covered l d ≤ covered l (d.put m) := by
    intro l
    unfold covered
    refine List.countP_mono_left fun m' _ h => ?_
    rw [decide_eq_true_eq] at h ⊢
    exact put_covers hh hw hn h
  obtain ⟨l1, l2, rfl⟩ := List.append_of_mem hm
  have h1 := hmono l1
  have h2 := hmono l2
  have e1 : ¬ d.Covers m := fun h => h.not_newer hh hn
  have e2 : (d.put m).Covers m := ⟨m, stored_put.mpr (.inl hw.trunc_eq.symm), ⟨rfl, rfl⟩, le_refl _⟩
  unfold covered at *
  rw [List.countP_append, List.countP_append, List.countP_cons_of_neg (by simpa using e1), List.countP_cons_of_pos (by simpa using e2)]
  omega

/-- What holds while the node is told the messages. -/
structure Telling (msgs : List TrustRelation) (now : Dur) (db d : Db) : Prop where
  told : Spec.Told msgs d
  noFaults : d.NoFaults
  roots : d.roots = db.roots
  size : d.relations.length ≤ db.relations.length + covered msgs d

theorem Telling.healthy (h : Telling msgs now db d) : d.Healthy := h.told.elim fun _ h => h.1.reachable.healthy

variable (hwhole : ∀ m ∈ msgs, m.Whole) (hlive : ∀ m ∈ msgs, m.LiveAt now) (hn : db.relations.length + msgs.length + 16 < 2 ^ 32)
include hwhole hlive hn

theorem Telling.tell (h : Telling msgs now db d) {m : TrustRelation} (hm : m ∈ msgs) :
    Telling msgs now db ((m.tell now).run d) ∧
      ((m.tell now).run d = d ∨ d.Newer m ∧ covered msgs d < covered msgs ((m.tell now).run d)) := by
  have hh := h.healthy
  have hl : ∀ q, d.Stored q → q.LiveAt now := by
    intro q hq
    obtain ⟨ops, hist, hops⟩ := h.told
    obtain ⟨op, ho, m', hm', hv', rfl⟩ := (C72_provenance hist).1 q hq
    rw [(hwhole m' (hops op ho m' ⟨hm', hv'⟩)).trunc_eq]
    exact hlive m' (hops op ho m' ⟨hm', hv'⟩)
  have hsz := h.size
  have hle : covered msgs d ≤ msgs.length := List.countP_le_length
  have htold : Spec.Told msgs ((m.tell now).run d) := by
    obtain ⟨ops, hist, hops⟩ := h.told
    refine ⟨_, hist.step (m.tell now), fun op ho m' hm' => ?_⟩
    rcases List.mem_append.mp ho with ho | ho
    · exact hops op ho m' hm'
    · rw [List.mem_singleton.mp ho] at hm'
      cases m <;> rw [List.mem_singleton.mp hm'.1] <;> exact hm
  rcases tell_cases hh h.noFaults (by omega) hl m with e | ⟨hnew, e⟩
  · refine ⟨?_, .inl e⟩
    rw [e]
    exact h
  · have hlt := put_covered hh (hwhole m hm) hnew hm
    refine ⟨⟨htold, ?_, ?_, ?_⟩, .inr ⟨hnew, ?_⟩⟩
    · rw [e]; exact h.noFaults
    · rw [e]; exact h.roots
    · rw [e]
      have := put_length_le (db := d) m
      omega
    · rw [e]; exact hlt

theorem Telling.tellAll (h : Telling msgs now db d) (l : List TrustRelation) (hl : ∀ m ∈ l, m ∈ msgs) :
    Telling msgs now db (tellAll now l d) ∧
      ((tellAll now l d = d ∧ ∀ m ∈ l, (m.tell now).run d = d) ∨ covered msgs d < covered msgs (TG.tellAll now l d)) := by
  induction l generalizing d with
  | nil => exact ⟨h, .inl ⟨rfl, fun m hm => by cases hm⟩⟩
  | cons m l ih =>
    obtain ⟨h1, hc⟩ := h.tell hwhole hlive hn (hl m (by simp))
    obtain ⟨h2, hc2⟩ := ih h1 (fun m' hm' => hl m' (by simp [hm']))
    change Telling msgs now db (TG.tellAll now l ((m.tell now).run d)) at h2
    show Telling msgs now db (TG.tellAll now l ((m.tell now).run d)) ∧
      ((TG.tellAll now l ((m.tell now).run d) = d ∧ ∀ m' ∈ m :: l, (m'.tell now).run d = d) ∨
        covered msgs d < covered msgs (TG.tellAll now l ((m.tell now).run d)))
    refine ⟨h2, ?_⟩
    rcases hc with e | ⟨-, hlt⟩
    · rw [e] at hc2 ⊢
      rcases hc2 with ⟨e2, hall⟩ | hlt
      · refine .inl ⟨e2, fun m' hm' => ?_⟩
        rcases List.mem_cons.mp hm' with rfl | hm'
        · exact e
        · exact hall m' hm'
      · exact .inr hlt
    · right
      rcases hc2 with ⟨e2, -⟩ | hlt2
      · rw [e2]; exact hlt
      · omega

end Db

theorem tellRounds_succ (now : Dur) (msgs : List TrustRelation) (n : Nat) (db : Db) :
    tellRounds now msgs (n + 1) db = tellAll now msgs (tellRounds now msgs n db) := by
  induction n generalizing db with
  | zero => rfl
  | succ n ih => exact ih (tellAll now msgs db)

/-- **C110**, settling: a node that has been told messages of a collection, all of them live, is settled after it has been told all of them as many times as
there are messages, in any fixed order. -/
theorem C110_settles {msgs : List TrustRelation} {now : Dur} {db : Db} (hf : db.NoFaults) (ht : Spec.Told msgs db)
    (hwhole : ∀ m ∈ msgs, m.Whole) (hlive : ∀ a, .auth a ∈ msgs → Spec.Live a.trust now)
    (hn : db.relations.length + msgs.length + 16 < 2 ^ 32) :
    Spec.Settled msgs now (tellRounds now msgs msgs.length db) ∧ Spec.Told msgs (tellRounds now msgs msgs.length db) ∧
      (tellRounds now msgs msgs.length db).NoFaults ∧ (tellRounds now msgs msgs.length db).roots = db.roots ∧
      (tellRounds now msgs msgs.length db).relations.length ≤ db.relations.length + msgs.length := by
  have hlive' : ∀ m ∈ msgs, m.LiveAt now := fun m hm a e => hlive a (e ▸ hm)
  have key : ∀ n, Db.Telling msgs now db (tellRounds now msgs n db) ∧
      ((∀ m ∈ msgs, (m.tell now).run (tellRounds now msgs n db) = tellRounds now msgs n db) ∨ n ≤ Db.covered msgs (tellRounds now msgs n db)) := by
    intro n
    induction n with
    | zero => exact ⟨⟨ht, hf, rfl, Nat.le_add_right _ _⟩, .inr (Nat.zero_le _)⟩
    | succ n ih =>
      rw [tellRounds_succ]
      generalize tellRounds now msgs n db = d at ih
      obtain ⟨h1, hc⟩ := ih.1.tellAll hwhole hlive' hn msgs (fun _ h => h)
      refine ⟨h1, ?_⟩
      rcases hc with ⟨e, hall⟩ | hlt
      · rw [e]
        exact .inl hall
      · rcases ih.2 with hall | hle
        · left
          have : tellAll now msgs d = d := by
            have : ∀ l : List TrustRelation, (∀ m ∈ l, (m.tell now).run d = d) → tellAll now l d = d := by
              intro l
              induction l with
              | nil => exact fun _ => rfl
              | cons m l ih =>
                intro h
                show tellAll now l ((m.tell now).run d) = d
                rw [h m (by simp)]
                exact ih fun m' hm' => h m' (by simp [hm'])
            exact this msgs hall
          rw [this]
          exact hall
        · right
          omega
  obtain ⟨h1, hc⟩ := key msgs.length
  generalize tellRounds now msgs msgs.length db = d at h1 hc
  have hle : Db.covered msgs d ≤ msgs.length := List.countP_le_length
  refine ⟨?_, h1.told, h1.noFaults, h1.roots, by have := h1.size; omega⟩
  rcases hc with hall | hge
  · exact fun m hm => by rw [hall m hm]
  · intro m hm
    have hcov : d.Covers m := by
      classical
      have := List.countP_eq_length.mp (le_antisymm hle hge) m hm
      rwa [decide_eq_true_eq] at this
    rcases (h1.tell hwhole hlive' hn hm).2 with e | ⟨hnew, -⟩
    · rw [e]
    · exact absurd hnew (hcov.not_newer h1.healthy)

/-- **C110**, together: two nodes with the same roots exchange what they have been told, all of it live, until nothing changes any more.  Then they agree on the
certificates that are in order. -/
theorem C110_exchange_partial {msgs : List TrustRelation} {now : Dur} {A B : Db} (hfA : A.NoFaults) (hfB : B.NoFaults)
    (hnA : A.relations.length + msgs.length + 16 < 2 ^ 32) (hnB : B.relations.length + msgs.length + 16 < 2 ^ 32)
    (hroots : ∀ k, A.rootFactor k = B.rootFactor k) (htA : Spec.Told msgs A) (htB : Spec.Told msgs B) (hnow : now.secs.toNat < 2 ^ 63)
    (hwhole : ∀ m ∈ msgs, m.Whole) (hlive : ∀ a, .auth a ∈ msgs → Spec.Live a.trust now)
    (hdiff : ∀ q ∈ msgs, ∀ r ∈ msgs, q.SamePair r → q.issuedAt = r.issuedAt → q = r)
    {k : PublicKey} {cs cs' : List Certificate} {s s' : Db}
    (h : TrustGraph.getAllCerts k now (tellRounds now msgs msgs.length A) = (.ok cs, s))
    (h' : TrustGraph.getAllCerts k now (tellRounds now msgs msgs.length B) = (.ok cs', s')) (c : Certificate) :
    c ∈ cs ∧ Spec.InOrder (tellRounds now msgs msgs.length A) now c ↔ c ∈ cs' ∧ Spec.InOrder (tellRounds now msgs msgs.length B) now c := by
  obtain ⟨a1, a2, a3, a4, a5⟩ := C110_settles hfA htA hwhole hlive hnA
  obtain ⟨b1, b2, b3, b4, b5⟩ := C110_settles hfB htB hwhole hlive hnB
  refine C110_certificates_partial a3 b3 (by omega) (by omega) (fun k => ?_) a2 a1 b2 b1 hnow (fun q hq r hr hp e => hdiff q hq r hr hp ?_) h h' c
  · rw [Db.rootFactor_congr a4, Db.rootFactor_congr b4, hroots]
  · have hw : ∀ m ∈ msgs, m.issuedAt.Whole := by
      intro m hm
      have := hwhole m hm
      cases m with
      | auth a => exact this.1
      | revocation r => exact this
    rw [← (hw q hq).eq, ← (hw r hr).eq, e]

end TG
