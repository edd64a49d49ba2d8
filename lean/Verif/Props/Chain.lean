/-
Property C89: the weights along a chain of trusts.
-/
import Verif.Props.Bootstrap

namespace TG
variable [LawfulEnv]

/-- `c` is the chain `R -> k₁ -> … -> kₙ` of the README: a self-signed trust of `R`, then a trust for each of the other keys by the key before it.  The keys are
different, the trusts are valid at `now`, and there are at most `m` of them after the root trust. -/
structure Spec.Chain (c : Certificate) (R : PublicKey) (m : Nat) (now : Dur) : Prop where
  start : ∃ t, c.chain[0]? = some t ∧ t.issuedFor = R
  long : 2 ≤ c.chain.length
  short : c.chain.length ≤ m + 1
  distinct : ∀ (i j : Nat) a b, c.chain[i]? = some a → c.chain[j]? = some b → a.issuedFor = b.issuedFor → i = j
  valid : ∀ k t, Spec.Edge c.chain k t → t.verify k now = .ok ()
  live : ∀ t ∈ c.chain, Spec.Live t now
  whole : ∀ t ∈ c.chain, t.WholeSeconds

omit [LawfulEnv] in
/-- In a graph that holds a chain with different keys and nothing else, the certificates are the beginnings of the chain. -/
theorem chain_admissible [Env] {g : Spec.Snapshot} {ts : List Trust} (hg : ∀ k t, g.trusted k t → Spec.Edge ts k t)
    (hroot : ∀ k, g.root k → ∃ t, ts[0]? = some t ∧ t.issuedFor = k)
    (hd : ∀ (i j : Nat) a b, ts[i]? = some a → ts[j]? = some b → a.issuedFor = b.issuedFor → i = j) {pk : PublicKey} {c : Certificate}
    (hc : Spec.Admissible g pk c) : ∀ j, j < c.chain.length → c.chain[j]? = ts[j]? := by
  intro j
  induction j with
  | zero =>
    intro hj
    have h0 : c.chain[0]? = some c.chain[0] := List.getElem?_eq_getElem hj
    obtain ⟨hr, ht⟩ := hc.linked.root _ h0
    obtain ⟨t0, h1, h2⟩ := hroot _ hr
    obtain ⟨i, -, hi⟩ := hg _ _ ht
    obtain rfl := hd i 0 _ _ hi h1 h2.symm
    rw [h0, hi]
  | succ j ih =>
    intro hj
    have ha : c.chain[j]? = some c.chain[j] := List.getElem?_eq_getElem (by omega)
    have hb : c.chain[j + 1]? = some c.chain[j + 1] := List.getElem?_eq_getElem hj
    have hat := ih (by omega)
    rw [ha] at hat
    obtain ⟨i, hi, hti⟩ := hg _ _ (hc.linked.link j _ _ ha hb)
    obtain ⟨x, hx, ex⟩ := Spec.issuers_get hi
    have hij := hd (i - 1) j _ _ hx hat.symm ex
    rcases i with _ | i
    · exfalso
      have hj0 : j = 0 := by omega
      subst hj0
      have := hc.noRevisit 0 1 _ _ Nat.zero_lt_one ha hb (by
        rw [← hat] at hti
        rw [← Option.some.inj hti])
      omega
    · rw [Nat.add_sub_cancel] at hij
      subst hij
      rw [hb, hti]

omit [LawfulEnv] in
/-- A chain with different keys can be imported if its root has been set. -/
theorem chain_importable [LawfulEnv] {c : Certificate} {R : PublicKey} {m : Nat} {now : Dur} (hm : m ≤ 16) (h : Spec.Chain c R m now) :
    Spec.Importable (Db.empty.addRoot R (16 - m)) c now where
  long := h.long
  root t ht := by
    obtain ⟨t', ht', e⟩ := h.start
    rw [ht] at ht'
    cases ht'
    refine ⟨16 - m, by rw [Db.addRoot_rootFactor, if_pos e], ?_⟩
    have := h.short
    omega
  valid := h.valid
  live := h.live
  whole := h.whole
  noRevisit i j a b hij ha hb e := absurd (h.distinct i j a b ha hb e) (by omega)
  unrevoked := by
    rintro _ _ _ _ _ _ _ ⟨r, hr, -⟩
    nomatch hr.2
  fresh _ _ _ r hr := nomatch hr.2

/-- **C89** (what holds).  After `set_root(R, m)` on an empty database and the import of a chain `R -> k₁ -> … -> kₙ` with `n ≤ m`, the weight of `R` is `2^m`,
that of `kᵢ` is `2^(m - i)` while the first `i + 1` trusts have not expired and 0 after that, and that of every other key is 0. -/
theorem C89_weights_along_chain_partial {c : Certificate} {R : PublicKey} {m : Nat} {now : Dur} (hm : m ≤ 16) (h : Spec.Chain c R m now) :
    ∃ d, (TrustGraph.setRoot R m >>= fun _ => TrustGraph.add c now) Db.empty = (.ok (), d) ∧ ∀ later,
      (TrustGraph.weight R later d).1 = .ok (2 ^ m) ∧
      (∀ (i : Nat) t, 0 < i → c.chain[i]? = some t → (∀ (j : Nat) t', j ≤ i → c.chain[j]? = some t' → Spec.Live t' later) →
        (TrustGraph.weight t.issuedFor later d).1 = .ok (2 ^ (m - i))) ∧
      (∀ (i j : Nat) t t', 0 < i → c.chain[i]? = some t → j ≤ i → c.chain[j]? = some t' → ¬ Spec.Live t' later →
        (TrustGraph.weight t.issuedFor later d).1 = .ok 0) ∧
      (∀ k, (∀ t ∈ c.chain, t.issuedFor ≠ k) → (TrustGraph.weight k later d).1 = .ok 0) := by
  have hi := chain_importable hm h
  obtain ⟨t0, h0, e0⟩ := h.start
  have hh0 : (Db.empty.addRoot R (16 - m)).Healthy := Reachable.init.healthy.addRoot R (by omega)
  have hshort := h.short
  obtain ⟨d, h1, h2⟩ := import_add hh0 (by exact rfl) hi (by
    show 0 + _ + 16 < _
    omega)
  have h3 := h2.imported hi
  refine ⟨d, ?_, ?_⟩
  · rw [M.bind_run_ok (setRoot_noFaults (db := .empty) rfl R m)]
    exact h1
  intro later
  have hlen : d.relations.length + 16 < 2 ^ 32 := by
    have := h3.length
    have e : (Db.empty.addRoot R (16 - m)).relations.length = 0 := rfl
    rw [e] at this
    simp at this
    omega
  have hst : ∀ r, d.Stored r ↔ ∃ k t, Spec.Edge c.chain k t ∧ r = .auth ⟨t, k⟩ := by
    intro r
    rw [h3.stored]
    simp only [List.mem_singleton, exists_eq_left]
    exact Iff.intro (fun h => h.resolve_right fun h => nomatch h.1.2) Or.inl
  have hedge : ∀ k t, (d.snapshot later).trusted k t ↔ Spec.Edge c.chain k t ∧ Spec.Live t later := by
    intro k t
    show d.Stored _ ∧ _ ↔ _
    rw [hst]
    constructor
    · rintro ⟨⟨k', t', hk, e⟩, hl⟩
      cases e
      exact ⟨hk, hl⟩
    · rintro ⟨hk, hl⟩
      exact ⟨⟨k, t, hk, rfl⟩, hl⟩
  have hfac : ∀ k, d.rootFactor k = if k = R then some (16 - m) else none := by
    intro k
    rw [← Db.addRoot_rootFactor]
    unfold Db.rootFactor
    rw [h3.roots]
  have hrootR : ∀ k, (d.snapshot later).root k ↔ k = R := by
    intro k
    show (∃ row ∈ d.roots, _) ↔ _
    rw [← Db.rootFactor_isSome, hfac]
    by_cases e : k = R <;> simp [e]
  have hadm : ∀ {pk c'}, Spec.Admissible (d.snapshot later) pk c' → ∀ j, j < c'.chain.length → c'.chain[j]? = c.chain[j]? :=
    fun hc => chain_admissible (fun k t hk => ((hedge k t).mp hk).1) (fun k hk => ⟨t0, h0, e0.trans ((hrootR k).mp hk).symm⟩) h.distinct hc
  -- the certificates of the key with number `i`
  have hexact : ∀ {pk c'}, Spec.Admissible (d.snapshot later) pk c' → ∃ t, c.chain[c'.chain.length - 1]? = some t ∧ t.issuedFor = pk := by
    intro pk c' hc
    have hl := hc.linked.long
    have := hadm hc (c'.chain.length - 1) (by omega)
    rw [List.getElem?_eq_getElem (by omega)] at this
    exact ⟨_, this.symm, hc.linked.target _ (List.getElem?_eq_getElem (by omega))⟩
  have hliveAt : ∀ {pk c'}, Spec.Admissible (d.snapshot later) pk c' → ∀ (j : Nat) t, j < c'.chain.length → c.chain[j]? = some t → Spec.Live t later := by
    intro pk c' hc j t hj ht
    rw [← hadm hc j hj] at ht
    rcases j with _ | j
    · exact (hc.linked.root t ht).2.2
    · exact (hc.linked.link j _ _ (List.getElem?_eq_getElem (by omega)) ht).2
  have hcw : ∀ {pk c'}, Spec.Admissible (d.snapshot later) pk c' → d.certWeight c' = 2 ^ (m - (c'.chain.length - 1)) := by
    intro pk c' hc
    have hl := hc.linked.long
    have hz := hadm hc 0 (by omega)
    rw [h0] at hz
    obtain ⟨ts⟩ := c'
    rcases ts with _ | ⟨a, rest⟩
    · simp at hl
    · cases hz
      unfold Db.certWeight
      simp only [hfac, if_pos e0]
      congr 1
      simp
      omega
  have hans : ∀ pk {w}, IsGreatest (Spec.weights d pk later) w → (TrustGraph.weight pk later d).1 = .ok w := by
    intro pk w hw
    obtain ⟨s, hs⟩ := Db.weight_eq h3.healthy h3.noFaults hlen pk later hw
    rw [hs]
  have hneR : ∀ {i : Nat} {t}, 0 < i → c.chain[i]? = some t → t.issuedFor ≠ R := by
    intro i t hi ht e
    have := h.distinct i 0 _ _ ht h0 (e.trans e0.symm)
    omega
  refine ⟨hans R ⟨.inr (.inl ⟨16 - m, by rw [hfac, if_pos rfl], by congr 1; omega⟩), ?_⟩, ?_, ?_, ?_⟩
  · rintro w (rfl | ⟨f, hf, rfl⟩ | ⟨c', hc, rfl⟩)
    · exact Nat.zero_le _
    · rw [hfac, if_pos rfl] at hf
      cases hf
      exact Nat.pow_le_pow_right (by decide) (by omega)
    · rw [hcw hc]
      exact Nat.pow_le_pow_right (by decide) (by omega)
  · intro i t hpos ht hlv
    apply hans
    have hi' : i < c.chain.length := (List.getElem?_eq_some_iff.mp ht).1
    have hget : ∀ j, j < i + 1 → (c.chain.take (i + 1))[j]? = c.chain[j]? := fun j hj => List.getElem?_take_of_lt hj
    have hget' : ∀ {j : Nat} {a}, (c.chain.take (i + 1))[j]? = some a → j ≤ i ∧ c.chain[j]? = some a := by
      intro j a ha
      have hj := (List.getElem?_eq_some_iff.mp ha).1
      rw [List.length_take] at hj
      have hj' : j < i + 1 := by omega
      exact ⟨by omega, by rwa [hget j hj'] at ha⟩
    have hlt : (c.chain.take (i + 1)).length = i + 1 := by
      rw [List.length_take]
      omega
    have hadmi : Spec.Admissible (d.snapshot later) t.issuedFor ⟨c.chain.take (i + 1)⟩ := by
      refine ⟨⟨by rw [hlt]; omega, ?_, ?_, ?_⟩, ?_, ?_⟩
      · intro a ha
        obtain ⟨hj, ha⟩ := hget' ha
        have hl := hlv 0 _ hj ha
        rw [h0] at ha
        cases ha
        exact ⟨(hrootR _).mpr e0, (hedge _ _).mpr ⟨⟨0, Spec.edge_zero h0, h0⟩, hl⟩⟩
      · intro j a b ha hb
        obtain ⟨-, ha⟩ := hget' ha
        obtain ⟨hj, hb⟩ := hget' hb
        exact (hedge _ _).mpr ⟨⟨j + 1, Spec.issuers_succ ha (List.getElem?_eq_some_iff.mp hb).1, hb⟩, hlv _ _ hj hb⟩
      · intro a ha
        rw [hlt] at ha
        obtain ⟨-, ha⟩ := hget' ha
        rw [Nat.add_sub_cancel, ht] at ha
        cases ha
        rfl
      · intro j j' a b hjj ha hb e
        exact absurd (h.distinct _ _ _ _ (hget' ha).2 (hget' hb).2 e) (by omega)
      · rintro j j' a b - - - - ⟨r, hr, -⟩
        obtain ⟨k, t', -, e⟩ := (hst _).mp hr
        nomatch e
    refine ⟨.inr (.inr ⟨_, hadmi, ?_⟩), ?_⟩
    · rw [hcw hadmi]
      show _ = 2 ^ (m - ((c.chain.take (i + 1)).length - 1))
      rw [hlt, Nat.add_sub_cancel]
    · rintro w (rfl | ⟨f, hf, -⟩ | ⟨c', hc, rfl⟩)
      · exact Nat.zero_le _
      · rw [hfac, if_neg (hneR hpos ht)] at hf
        nomatch hf
      · obtain ⟨t', ht', e⟩ := hexact hc
        rw [hcw hc, h.distinct _ _ _ _ ht' ht e]
  · intro i j t t' hpos ht hj ht' hdead
    apply hans
    refine ⟨.inl rfl, ?_⟩
    rintro w (rfl | ⟨f, hf, -⟩ | ⟨c', hc, rfl⟩)
    · exact Nat.le_refl _
    · rw [hfac, if_neg (hneR hpos ht)] at hf
      nomatch hf
    · obtain ⟨t'', ht'', e⟩ := hexact hc
      have := h.distinct _ _ _ _ ht'' ht e
      have hl := hc.linked.long
      exact absurd (hliveAt hc j t' (by omega) ht') hdead
  · intro k hk
    apply hans
    refine ⟨.inl rfl, ?_⟩
    rintro w (rfl | ⟨f, hf, -⟩ | ⟨c', hc, rfl⟩)
    · exact Nat.le_refl _
    · rw [hfac, if_neg (fun e => hk t0 (List.mem_of_getElem? h0) (e0.trans e.symm))] at hf
      nomatch hf
    · obtain ⟨t', ht', e⟩ := hexact hc
      exact absurd e (hk t' (List.mem_of_getElem? ht'))

/-- The README's FAQ: "if we have a root with a maximum chain length equal 4 and have a chain `R -> A -> B -> C`, so the corresponding weights of peers are `8`,
`4`, `2`, `1`". -/
def Spec.FaqWeights (c : Certificate) (R : PublicKey) (now : Dur) : Prop :=
  ∃ d, (TrustGraph.setRoot R 4 >>= fun _ => TrustGraph.add c now) Db.empty = (.ok (), d) ∧
    ∀ (i : Nat) t, c.chain[i]? = some t → (TrustGraph.weight t.issuedFor now d).1 = .ok (2 ^ (3 - i))

/-- The FAQ's numbers are wrong for every such chain: the weights are 16, 8, 4 and 2. -/
theorem C89_faq_fails {c : Certificate} {R : PublicKey} {now : Dur} (h : Spec.Chain c R 4 now) : ¬ Spec.FaqWeights c R now := by
  rintro ⟨d, h1, h2⟩
  obtain ⟨d', h3, h4⟩ := C89_weights_along_chain_partial (by decide) h
  rw [h1] at h3
  cases h3
  obtain ⟨t, ht, rfl⟩ := h.start
  have := (h4 now).1
  rw [h2 0 t ht] at this
  exact absurd this (by decide)

/-- The numbers of the FAQ are those of a root with `max_chain_len` 3. -/
theorem C89_faq_root_3_partial {c : Certificate} {R : PublicKey} {now : Dur} (h : Spec.Chain c R 3 now) :
    ∃ d, (TrustGraph.setRoot R 3 >>= fun _ => TrustGraph.add c now) Db.empty = (.ok (), d) ∧
      ∀ (i : Nat) t, c.chain[i]? = some t → (TrustGraph.weight t.issuedFor now d).1 = .ok (2 ^ (3 - i)) := by
  obtain ⟨d, h1, h2⟩ := C89_weights_along_chain_partial (by decide) h
  refine ⟨d, h1, fun i t ht => ?_⟩
  obtain ⟨hR, hk, -, -⟩ := h2 now
  rcases i with _ | i
  · obtain ⟨t0, h0, rfl⟩ := h.start
    rw [ht] at h0
    cases h0
    exact hR
  · exact hk (i + 1) t (Nat.succ_pos i) ht fun j t' _ ht' => h.live t' (List.mem_of_getElem? ht')

end TG
