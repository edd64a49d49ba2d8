/-
How much weight keys can confer: C96, C97.
-/
import Verif.Spec.Submits
import Verif.Props.Updates
import Verif.Proofs.Ops
import Verif.Proofs.NoTrap
import Mathlib.Data.Nat.Find

namespace TG
variable [Env]

/-- The beginning of a certificate, up to a key that nobody before it has revoked, is a certificate of that key. -/
theorem Spec.Admissible.upTo {g : Spec.Snapshot} {k : PublicKey} {c : Certificate} {t : Trust} {i : Nat} (hc : Spec.Admissible g k c)
    (ht : c.chain[i]? = some t) (hi : 1 ≤ i)
    (hrev : ∀ (p : Nat) a, p < i → c.chain[p]? = some a → i + 2 = c.chain.length → ¬ g.revoked a.issuedFor t.issuedFor) :
    Spec.Admissible g t.issuedFor ⟨c.chain.take (i + 1)⟩ := by
  have hlt : i < c.chain.length := (List.getElem?_eq_some_iff.mp ht).1
  have hget : ∀ (j : Nat) a, (c.chain.take (i + 1))[j]? = some a → c.chain[j]? = some a := by
    intro j a h
    rw [List.getElem?_take] at h
    split at h
    · exact h
    · cases h
  have hlen : (c.chain.take (i + 1)).length = i + 1 := by rw [List.length_take]; omega
  refine ⟨⟨by rw [hlen]; omega, fun a ha => hc.linked.root a (hget _ _ ha),
    fun j a b ha hb => hc.linked.link j a b (hget _ _ ha) (hget _ _ hb), fun a ha => ?_⟩,
    fun p q a b hpq ha hb e => hc.noRevisit p q a b hpq (hget _ _ ha) (hget _ _ hb) e, ?_⟩
  · rw [hlen, Nat.add_sub_cancel] at ha
    have := hget _ _ ha
    rw [ht] at this
    cases this
    rfl
  · intro p q a b hpq ha hb hne
    have hq : q < i + 1 := by rw [← hlen]; exact (List.getElem?_eq_some_iff.mp hb).1
    replace ha := hget _ _ ha
    replace hb := hget _ _ hb
    dsimp only at hne
    rw [hlen] at hne
    by_cases hl : q + 2 = c.chain.length
    · obtain rfl : q = i := by omega
      rw [ht] at hb
      cases hb
      exact hrev p a hpq ha hl
    · exact hc.unrevoked p q a b hpq ha hb hl

theorem Db.certWeight_cons {db : Db} {c : Certificate} {t : Trust} {f : Nat} (h0 : c.chain[0]? = some t) (hf : db.rootFactor t.issuedFor = some f) :
    db.certWeight c = 2 ^ (16 - (f + (c.chain.length - 1))) := by
  unfold Db.certWeight
  rcases hc : c.chain with _ | ⟨t', rest⟩
  · rw [hc] at h0; cases h0
  · rw [hc] at h0
    cases h0
    simp only [hf, List.length_cons, Nat.add_sub_cancel]

omit [Env] in
theorem pow_half_max {m n : Nat} (h : m < n) : 2 ^ (16 - n) ≤ max 1 (2 ^ (16 - m) / 2) := by
  by_cases hn : 16 ≤ n
  · rw [Nat.sub_eq_zero_of_le hn]
    exact le_max_left _ _
  · refine le_trans ?_ (le_max_right _ _)
    rw [show 16 - m = (16 - m - 1) + 1 by omega, Nat.pow_succ, Nat.mul_div_cancel _ (by decide)]
    exact Nat.pow_le_pow_right (by decide) (by omega)

/-- What a certificate through `a` is worth, against the weight of `a`. -/
theorem Spec.half_of {db : Db} {now : Dur} {c : Certificate} {t : Trust} {i wa : Nat}
    (hwa : IsGreatest (Spec.weights db t.issuedFor now) wa) (hroot : ∀ t0, c.chain[0]? = some t0 → (db.rootFactor t0.issuedFor).isSome)
    (ht : c.chain[i]? = some t) (hi : i + 1 < c.chain.length)
    (hpre : 1 ≤ i → Spec.Admissible (db.snapshot now) t.issuedFor ⟨c.chain.take (i + 1)⟩) :
    db.certWeight c ≤ max 1 (wa / 2) ∧ 0 < wa := by
  have h0 : c.chain[0]? = some c.chain[0] := List.getElem?_eq_getElem (by omega)
  obtain ⟨f, hf⟩ := Option.isSome_iff_exists.mp (hroot _ h0)
  have hle : 2 ^ (16 - (f + i)) ≤ wa := by
    rcases Nat.eq_zero_or_pos i with rfl | hpos
    · rw [ht] at h0
      cases h0
      exact hwa.2 (.inr (.inl ⟨f, hf, rfl⟩))
    · refine hwa.2 (.inr (.inr ⟨_, hpre hpos, ?_⟩))
      have h0' : (c.chain.take (i + 1))[0]? = some c.chain[0] := by rw [List.getElem?_take, if_pos (by omega)]; exact h0
      rw [Db.certWeight_cons (c := ⟨c.chain.take (i + 1)⟩) h0' hf]
      simp only [List.length_take]
      rw [Nat.min_eq_left (by omega), Nat.add_sub_cancel]
  rw [Db.certWeight_cons h0 hf]
  refine ⟨le_trans (pow_half_max (m := f + i) (by omega)) (Nat.max_le.mpr ⟨Nat.le_max_left _ _, le_trans (Nat.div_le_div_right hle) (Nat.le_max_right _ _)⟩), ?_⟩
  exact lt_of_lt_of_le (Nat.pow_pos (by decide)) hle

/-- A key of a certificate other than its last. -/
theorem Spec.Admissible.index {g : Spec.Snapshot} {k a : PublicKey} {c : Certificate} (hc : Spec.Admissible g k c) (ha : a ∈ c.keys) (hne : a ≠ k) :
    ∃ (i : Nat) (t : Trust), c.chain[i]? = some t ∧ t.issuedFor = a ∧ i + 1 < c.chain.length := by
  obtain ⟨t, ht, rfl⟩ := List.mem_map.mp ha
  obtain ⟨i, hi⟩ := List.getElem?_of_mem ht
  refine ⟨i, t, hi, rfl, ?_⟩
  have hlt := (List.getElem?_eq_some_iff.mp hi).1
  by_contra hcon
  obtain rfl : i = c.chain.length - 1 := by omega
  exact hne (hc.linked.target t hi)

/-- **C96**: nobody confers more than half of their own weight (weights stop at 1).  What is missing: the issuer must not have been revoked by a key before
it on these certificates; `C96_half_fails` (F2). -/
theorem C96_half_partial {db s s' : Db} {pk a : PublicKey} {now : Dur} {w wa : Nat} (hr : Reachable db) (hn : db.relations.length + 16 < 2 ^ 32)
    (hne : a ≠ pk)
    (hrev : ∀ c, Spec.Admissible (db.snapshot now) pk c → ∀ (i j : Nat) x y, i < j → c.chain[i]? = some x → c.chain[j]? = some y → y.issuedFor = a →
      ¬ (db.snapshot now).revoked x.issuedFor a)
    (h : TrustGraph.weightFrom pk a now db = (.ok w, s)) (ha : TrustGraph.weight a now db = (.ok wa, s')) :
    w ≤ max 1 (wa / 2) ∧ (0 < w → 0 < wa) := by
  have hg := weight_ok hr.healthy hn ha
  rcases (weightFrom_ok hr.healthy hn h).1 with rfl | ⟨c, hc, ⟨t, ht, rfl⟩, rfl⟩
  · exact ⟨Nat.zero_le _, fun h => absurd h (lt_irrefl _)⟩
  · obtain ⟨i, t', hi, e, hlt⟩ := hc.index (List.mem_map_of_mem ht) hne
    rw [← e] at hg hrev
    obtain ⟨h1, h2⟩ := Spec.half_of hg (fun t0 h0 => Db.rootFactor_isSome.mpr (hc.linked.root t0 h0).1) hi hlt fun hpos =>
      hc.upTo hi hpos fun p x hp hx _ => hrev c hc p i x t' hp hx hi rfl
    exact ⟨h1, fun _ => h2⟩

/-! ### C97 -/

/-- From `g` to `g'` only keys of `S` have issued something; trusts may have expired. -/
structure Spec.Tampered (S : PublicKey → Prop) (g g' : Spec.Snapshot) : Prop where
  trusted : ∀ k t, ¬ S k → g'.trusted k t → g.trusted k t
  revoked : ∀ k k', ¬ S k → (g'.revoked k k' ↔ g.revoked k k')
  root : ∀ k, g'.root k ↔ g.root k

/-- Calls that submit only relations issued by keys of `S`; they may hand over forged ones of other keys. -/
def Spec.OnlyBy (S : PublicKey → Prop) (op : Op) : Prop := (∀ q, op.Submits q → S q.issuedBy) ∧ ∀ pk n, op ≠ .setRoot pk n

theorem Spec.Tampered.of_later {S : PublicKey → Prop} {db db' : Db} (hl : Later (Spec.OnlyBy S) db db') (now : Dur) :
    Spec.Tampered S (db.snapshot now) (db'.snapshot now) ∧ db'.roots = db.roots := by
  have hq : Quiet (fun s s' : Db => Spec.Tampered S (s.snapshot now) (s'.snapshot now) ∧ s'.roots = s.roots) := by
    refine ⟨?_, ?_, ?_⟩
    · exact fun _ => ⟨⟨fun _ _ _ h => h, fun _ _ _ => Iff.rfl, fun _ => Iff.rfl⟩, rfl⟩
    · exact fun _ _ _ h1 h2 => ⟨⟨fun k t hk h => h1.1.trusted k t hk (h2.1.trusted k t hk h),
        fun k k' hk => (h2.1.revoked k k' hk).trans (h1.1.revoked k k' hk), fun k => (h2.1.root k).trans (h1.1.root k)⟩, h2.2.trans h1.2⟩
    · exact fun _ _ => ⟨⟨fun _ _ _ h => h, fun _ _ _ => Iff.rfl, fun _ => Iff.rfl⟩, rfl⟩
  induction hl with
  | refl => exact hq.refl _
  | weather fs _ ih => exact hq.trans _ _ _ ih (hq.faults _ _)
  | @step d op hop _ ih =>
    refine hq.trans _ _ _ ih (Op.run_steps hq op ?_ ?_ ?_ d)
    · intro t _ d
      refine ⟨⟨fun k tr _ h => ⟨((Db.stored_collect t).mp h.1).1, h.2⟩, fun k k' _ => ?_, fun _ => Iff.rfl⟩, rfl⟩
      show (∃ r, _ ∧ _) ↔ ∃ r, _ ∧ _
      simp only [Db.stored_collect]
      simp
    · intro q hq hv _ d _
      have hs := hop.1 q ⟨hq, hv⟩
      refine ⟨⟨fun k tr hk h => ⟨?_, h.2⟩, fun k k' hk => ?_, fun _ => Iff.rfl⟩, rfl⟩
      · rcases Db.stored_put.mp h.1 with e | h
        · have e1 := congrArg TrustRelation.issuedBy e
          rw [TrustRelation.trunc_issuedBy] at e1
          exact absurd ((congrArg S e1).mpr hs) hk
        · exact h.1
      · show (∃ r, _ ∧ _) ↔ ∃ r, _ ∧ _
        refine exists_congr fun r => ?_
        rw [Db.stored_put]
        constructor
        · rintro ⟨e | h1, h2, h3⟩
          · have e1 := congrArg TrustRelation.issuedBy e
            rw [TrustRelation.trunc_issuedBy] at e1
            subst h2
            exact absurd ((congrArg S e1).mpr hs) hk
          · exact ⟨h1.1, h2, h3⟩
        · rintro ⟨h1, h2, h3⟩
          refine ⟨.inr ⟨h1, fun he => hk ?_⟩, h2, h3⟩
          exact h2 ▸ (congrArg S he.2).mpr hs
    · exact fun pk n e => absurd e (hop.2 pk n)

/-- A certificate on which no key but perhaps the last is in `S` was there before. -/
theorem Spec.Tampered.admissible {S : PublicKey → Prop} {g g' : Spec.Snapshot} (h : Spec.Tampered S g g') {k : PublicKey} {c : Certificate}
    (hc : Spec.Admissible g' k c) (hS : ∀ (i : Nat) t, c.chain[i]? = some t → i + 1 < c.chain.length → ¬ S t.issuedFor) : Spec.Admissible g k c where
  linked := {
    long := hc.linked.long
    root := fun t ht => by
      obtain ⟨h1, h2⟩ := hc.linked.root t ht
      exact ⟨(h.root _).mp h1, h.trusted _ _ (hS 0 t ht (by have := hc.linked.long; omega)) h2⟩
    link := fun i a b ha hb => h.trusted _ _ (hS i a ha (List.getElem?_eq_some_iff.mp hb).1) (hc.linked.link i a b ha hb)
    target := hc.linked.target }
  noRevisit := hc.noRevisit
  unrevoked := fun i j a b hij ha hb hl hr =>
    hc.unrevoked i j a b hij ha hb hl ((h.revoked _ _ (hS i a ha (by have := (List.getElem?_eq_some_iff.mp hb).1; omega))).mpr hr)

open Classical in
/-- **C97**, containment.  Let the keys of `S` be in the wrong hands: whatever relations they sign, in whatever order and at whatever times these are handed
over, and whatever SQL statements fail, no key's weight rises above what it was, or half of the weight that some key of `S` had before (weights stop at 1).
What is missing: no key outside `S` must have revoked a key of `S`; `C97_containment_fails` (F2). -/
theorem C97_containment_partial {S : PublicKey → Prop} {db db' s s' : Db} {target : PublicKey} {now : Dur} {w w' : Nat} (hr : Reachable db)
    (hf : db.NoFaults) (hn : db.relations.length + 16 < 2 ^ 32) (hn' : db'.relations.length + 16 < 2 ^ 32) (hl : Later (Spec.OnlyBy S) db db')
    (hrev : ∀ r, db.Stored (.revocation r) → S r.pk → S r.revokedBy)
    (h : TrustGraph.weight target now db = (.ok w, s)) (h' : TrustGraph.weight target now db' = (.ok w', s')) :
    w' ≤ w ∨ ∃ a wa, S a ∧ TrustGraph.weight a now db = (.ok wa, db.collect now) ∧ 0 < wa ∧ w' ≤ max 1 (wa / 2) := by
  obtain ⟨ht, hroots⟩ := Spec.Tampered.of_later hl now
  have hg := weight_ok hr.healthy hn h
  have hcw : ∀ c, db'.certWeight c = db.certWeight c := fun c => Db.certWeight_congr hroots rfl
  rcases (weight_ok (hl.reachable hr).healthy hn' h').1 with rfl | ⟨f, hf', rfl⟩ | ⟨c, hc, rfl⟩
  · exact .inl (Nat.zero_le _)
  · exact .inl (hg.2 (.inr (.inl ⟨f, (Db.rootFactor_congr hroots target).symm.trans hf', rfl⟩)))
  · rw [hcw]
    by_cases hS : ∃ i, i + 1 < c.chain.length ∧ ∃ t, c.chain[i]? = some t ∧ S t.issuedFor
    · right
      have hmin := @Nat.find_min _ _ hS
      obtain ⟨hlt, t, hi, hSt⟩ := Nat.find_spec hS
      generalize Nat.find hS = i at hmin hlt hi
      obtain ⟨wa, hwa⟩ := Db.weight_returns hr.healthy hf (.inr hn) t.issuedFor now
      have hsafe : ∀ (p : Nat) x, p < i → c.chain[p]? = some x → ¬ S x.issuedFor := fun p x hp hx hSx =>
        hmin hp ⟨by omega, x, hx, hSx⟩
      obtain ⟨h1, h2⟩ := Spec.half_of (c := c) (weight_ok hr.healthy hn hwa)
        (fun t0 h0 => by
          rw [← Db.rootFactor_congr hroots]
          exact Db.rootFactor_isSome.mpr (hc.linked.root t0 h0).1) hi hlt (fun hpos => by
          have hpre : Spec.Admissible (db'.snapshot now) t.issuedFor ⟨c.chain.take (i + 1)⟩ := by
            refine hc.upTo hi hpos fun p x hp hx _ hrv => hsafe p x hp hx ?_
            obtain ⟨r, hr1, hr2, hr3⟩ := (ht.revoked _ _ (hsafe p x hp hx)).mp hrv
            rw [← hr2]
            exact hrev r hr1 (hr3 ▸ hSt)
          refine ht.admissible hpre fun p x hx hlp => ?_
          dsimp only at hx hlp
          rw [List.length_take] at hlp
          rw [List.getElem?_take, if_pos (by omega)] at hx
          exact hsafe p x (by omega) hx)
      exact ⟨t.issuedFor, wa, hSt, hwa, h2, h1⟩
    · left
      refine hg.2 (.inr (.inr ⟨c, ht.admissible hc fun i t hi hlt hSt => hS ⟨i, hlt, t, hi, hSt⟩, rfl⟩))

/-- So keys without weight (that nobody else has revoked) raise nobody's weight, however many there are. -/
theorem C97_sybils_partial {S : PublicKey → Prop} {db db' s s' : Db} {target : PublicKey} {now : Dur} {w w' : Nat} (hr : Reachable db)
    (hf : db.NoFaults) (hn : db.relations.length + 16 < 2 ^ 32) (hn' : db'.relations.length + 16 < 2 ^ 32) (hl : Later (Spec.OnlyBy S) db db')
    (hrev : ∀ r, db.Stored (.revocation r) → S r.pk → S r.revokedBy)
    (hS : ∀ a, S a → ∃ s, TrustGraph.weight a now db = (.ok 0, s))
    (h : TrustGraph.weight target now db = (.ok w, s)) (h' : TrustGraph.weight target now db' = (.ok w', s')) : w' ≤ w := by
  rcases C97_containment_partial hr hf hn hn' hl hrev h h' with h1 | ⟨a, wa, ha, hwa, hpos, -⟩
  · exact h1
  · obtain ⟨_, h0⟩ := hS a ha
    rw [hwa] at h0
    cases h0
    exact absurd hpos (lt_irrefl _)

/-- Calls made not later than `now`: what is in force at `now` was not changed by keys outside `S`, in either direction. -/
theorem Spec.Tampered.both {S : PublicKey → Prop} {db db' : Db} {now : Dur}
    (hl : Later (fun op => Spec.OnlyBy S op ∧ ∀ t, op.time = some t → asI64 t.secs ≤ asI64 now.secs) db db') :
    Spec.Tampered S (db.snapshot now) (db'.snapshot now) ∧ Spec.Tampered S (db'.snapshot now) (db.snapshot now) := by
  have hl' : Later (Spec.OnlyBy S) db db' := hl.mono fun _ h => h.1
  obtain ⟨ht, -⟩ := Spec.Tampered.of_later hl' now
  have hback : Spec.Tampered S (db'.snapshot now) (db.snapshot now) := by
    refine ⟨?_, fun k k' hk => (ht.revoked k k' hk).symm, fun k => (ht.root k).symm⟩
    intro k t hk hkt
    have hq : Quiet (fun s s' : Db => (s.snapshot now).trusted k t → (s'.snapshot now).trusted k t) :=
      ⟨fun _ h => h, fun _ _ _ h1 h2 h => h2 (h1 h), fun _ _ h => h⟩
    clear ht hl'
    induction hl with
    | refl => exact hkt
    | weather fs _ ih => exact ih
    | @step d op hop _ ih =>
      refine Op.run_steps hq op ?_ ?_ ?_ d ih
      · intro t' ht' d hd
        refine ⟨(Db.stored_collect t').mpr ⟨hd.1, ?_⟩, hd.2⟩
        intro a e
        cases e
        exact lt_of_le_of_lt (hop.2 t' ht') hd.2
      · intro q hq hv _ d _ hd
        exact ⟨Db.stored_put.mpr (.inr ⟨hd.1, fun he => hk ((congrArg S he.2).mpr (hop.1.1 q ⟨hq, hv⟩))⟩), hd.2⟩
      · exact fun pk n e => absurd e (hop.1.2 pk n)
  exact ⟨ht, hback⟩

/-- **C97**, what they cannot touch: a certificate on which no key but perhaps the last is in `S` is returned afterwards exactly if it was returned before,
if the calls were not made at later times than `now`. -/
theorem C97_untouched {S : PublicKey → Prop} {db db' s s' : Db} {target : PublicKey} {now : Dur} {cs cs' : List Certificate} (hr : Reachable db)
    (hl : Later (fun op => Spec.OnlyBy S op ∧ ∀ t, op.time = some t → asI64 t.secs ≤ asI64 now.secs) db db')
    (h : TrustGraph.getAllCerts target now db = (.ok cs, s)) (h' : TrustGraph.getAllCerts target now db' = (.ok cs', s')) :
    ∀ c : Certificate, (∀ k ∈ c.keys.dropLast, ¬ S k) → (c ∈ cs' ↔ c ∈ cs) := by
  obtain ⟨ht, hback⟩ := Spec.Tampered.both hl
  intro c hS
  rw [(C02_complete_exactly_once (hl.reachable hr).healthy h').2, (C02_complete_exactly_once hr.healthy h).2]
  have hS' : ∀ (i : Nat) t, c.chain[i]? = some t → i + 1 < c.chain.length → ¬ S t.issuedFor := by
    intro i t hi hlt
    refine hS _ (List.mem_of_getElem? (i := i) ?_)
    rw [List.getElem?_dropLast, if_pos (by unfold Certificate.keys; rw [List.length_map]; omega)]
    exact Spec.keys_getElem?.mpr ⟨t, hi, rfl⟩
  exact ⟨fun hc => ht.admissible hc hS', fun hc => hback.admissible hc hS'⟩

end TG
