/-
The lists built by the search are the admissible certificates: helper lemmas.
-/
import Verif.Spec.Graph
import Verif.Proofs.Search

namespace TG.Search
variable [Env]

/-- The snapshot seen through a view. -/
def View.snapshot (v : View) (roots : List PublicKey) : Spec.Snapshot where
  trusted by' t := (⟨t, by'⟩ : Auth) ∈ v.auths t.issuedFor
  revoked by' pk := by' ∈ (v.revs pk).map (·.revokedBy)
  root pk := pk ∈ roots

variable {v : View} {bound : Nat}

theorem mem_revokers (target x : PublicKey) (l : List Auth) :
    x ∈ revokers v target l ↔ x ∈ (v.revs target).map (·.revokedBy) ∨
      ∃ y ∈ l.dropLast, x ∈ (v.revs y.issuedBy).map (·.revokedBy) := by
  match l with
  | [] => simp [revokers]
  | [a] => simp [revokers]
  | a :: b :: l =>
    have ih := mem_revokers target x (b :: l)
    rw [revokers, List.mem_append, ih, List.dropLast_cons_cons]
    simp only [List.mem_cons, exists_eq_or_imp]
    rw [or_assoc, or_comm (b := x ∈ List.map _ (v.revs a.issuedBy))]

/-- `Good` without recursion. -/
theorem good_iff (hv : Lawful v bound) (target : PublicKey) (l : List Auth) :
    Good v target l ↔ l ≠ [] ∧ (∀ a ∈ l, a ∈ v.auths a.trust.issuedFor) ∧
      (∀ a, l.getLast? = some a → a.trust.issuedFor = target) ∧
      l.IsChain (fun a b => b.issuedBy = a.trust.issuedFor) ∧
      l.Pairwise (fun a b => a.issuedBy ≠ b.trust.issuedFor) ∧
      l.dropLast.Pairwise (fun a b => a.issuedBy ∉ (v.revs b.issuedBy).map (·.revokedBy)) ∧
      (∀ a ∈ l.dropLast, a.issuedBy ∉ (v.revs target).map (·.revokedBy)) := by
  match l with
  | [] => simp [Good]
  | [a] =>
    simp only [Good, ne_eq, List.cons_ne_self, not_false_eq_true, List.mem_cons, List.not_mem_nil, or_false,
      forall_eq, List.getLast?_singleton, Option.some.injEq, forall_eq', List.dropLast_singleton,
      List.Pairwise.nil, true_and, List.IsChain.singleton, List.pairwise_cons, IsEmpty.forall_iff, implies_true,
      and_self, and_true]
    constructor
    · intro h
      have := hv.auth_for _ _ h
      exact ⟨by rw [this]; exact h, this⟩
    · rintro ⟨h, e⟩; rw [← e]; exact h
  | a :: b :: l =>
    have ih := good_iff hv target (b :: l)
    rw [Good, ih, mem_revokers, List.dropLast_cons_cons, List.isChain_cons_cons, List.pairwise_cons (a := a),
      List.pairwise_cons (a := a), List.getLast?_cons_cons]
    constructor
    · rintro ⟨⟨-, h1, h2, h3, h4, h5, h6⟩, h7, h8, h9⟩
      have hf := hv.auth_for _ _ h7
      refine ⟨by simp, ?_, h2, ⟨hf.symm, h3⟩, ⟨?_, h4⟩, ⟨?_, h5⟩, ?_⟩
      · intro x hx
        rcases List.mem_cons.mp hx with rfl | hx
        · rw [hf]; exact h7
        · exact h1 x hx
      · intro x hx e
        exact h9 (List.mem_map.mpr ⟨x, hx, e.symm⟩)
      · intro x hx hm
        exact h8 (Or.inr ⟨x, hx, hm⟩)
      · intro x hx
        rcases List.mem_cons.mp hx with rfl | hx
        · exact fun hm => h8 (Or.inl hm)
        · exact h6 x hx
    · rintro ⟨-, h1, h2, ⟨h3, h3'⟩, ⟨h4, h4'⟩, ⟨h5, h5'⟩, h6⟩
      refine ⟨⟨by simp, fun x hx => h1 x (List.mem_cons_of_mem _ hx), h2, h3', h4', h5',
        fun x hx => h6 x (List.mem_cons_of_mem _ hx)⟩, ?_, ?_, ?_⟩
      · rw [h3]; exact h1 a (by simp)
      · rintro (hm | ⟨y, hy, hm⟩)
        · exact h6 a (by simp) hm
        · exact h5 y hy hm
      · intro hm
        obtain ⟨x, hx, e⟩ := List.mem_map.mp hm
        exact h4 x hx e.symm

/-- Attach to each trust its issuer. -/
def withIssuers : PublicKey → List Trust → List Auth
  | _, [] => []
  | by', t :: ts => ⟨t, by'⟩ :: withIssuers t.issuedFor ts

theorem withIssuers_map (by' : PublicKey) (ts : List Trust) : (withIssuers by' ts).map (·.trust) = ts := by
  induction ts generalizing by' with
  | nil => rfl
  | cons t ts ih => simp [withIssuers, ih]

theorem withIssuers_isChain (by' : PublicKey) (ts : List Trust) :
    (withIssuers by' ts).IsChain (fun a b => b.issuedBy = a.trust.issuedFor) := by
  induction ts generalizing by' with
  | nil => exact List.IsChain.nil
  | cons t ts ih =>
    cases ts with
    | nil => exact List.IsChain.singleton _
    | cons t' ts => exact List.IsChain.cons_cons rfl (ih _)

theorem isChain_iff_withIssuers (l : List Auth) (a : Auth) (h : (a :: l).IsChain (fun a b => b.issuedBy = a.trust.issuedFor)) :
    a :: l = withIssuers a.issuedBy ((a :: l).map (·.trust)) := by
  induction l generalizing a with
  | nil => rfl
  | cons b l ih =>
    rw [List.isChain_cons_cons] at h
    have := ih b h.2
    rw [List.map_cons, withIssuers, ← h.1, ← this]

/-- The issuer of auth number `i`. -/
theorem withIssuers_getElem? (by' : PublicKey) (ts : List Trust) (i : Nat) (a : Auth) :
    (withIssuers by' ts)[i]? = some a ↔ ts[i]? = some a.trust ∧
      (i = 0 → a.issuedBy = by') ∧ (∀ j t, i = j + 1 → ts[j]? = some t → a.issuedBy = t.issuedFor) := by
  induction ts generalizing by' i with
  | nil => simp [withIssuers]
  | cons t ts ih =>
    cases i with
    | zero =>
      simp only [withIssuers, List.getElem?_cons_zero, Option.some.injEq, forall_const]
      constructor
      · rintro rfl; simp
      · rintro ⟨rfl, rfl, -⟩; rfl
    | succ i =>
      simp only [withIssuers, List.getElem?_cons_succ, ih]
      constructor
      · rintro ⟨h1, h2, h3⟩
        refine ⟨h1, by omega, ?_⟩
        intro j t' hj ht'
        have : j = i := by omega
        subst this
        cases j with
        | zero => simp at ht'; rw [← ht']; exact h2 rfl
        | succ j => simp at ht'; exact h3 j t' rfl ht'
      · rintro ⟨h1, -, h3⟩
        refine ⟨h1, ?_, ?_⟩
        · rintro rfl; exact h3 0 t rfl (by simp)
        · rintro j t' rfl ht'
          exact h3 (j + 1) t' rfl (by simpa using ht')

omit [Env] in
theorem pairwise_iff_getElem? {α : Type} {R : α → α → Prop} (l : List α) :
    l.Pairwise R ↔ ∀ (i j : Nat) a b, i < j → l[i]? = some a → l[j]? = some b → R a b := by
  rw [List.pairwise_iff_getElem]
  constructor
  · intro h i j a b hij ha hb
    obtain ⟨hi, rfl⟩ := List.getElem?_eq_some_iff.mp ha
    obtain ⟨hj, rfl⟩ := List.getElem?_eq_some_iff.mp hb
    exact h i j hi hj hij
  · intro h i j hi hj hij
    exact h i j _ _ hij (List.getElem?_eq_getElem hi) (List.getElem?_eq_getElem hj)

omit [Env] in
theorem isChain_iff_getElem? {α : Type} {R : α → α → Prop} (l : List α) :
    l.IsChain R ↔ ∀ (i : Nat) a b, l[i]? = some a → l[i + 1]? = some b → R a b := by
  rw [List.isChain_iff_getElem]
  constructor
  · intro h i a b ha hb
    obtain ⟨hi, rfl⟩ := List.getElem?_eq_some_iff.mp ha
    obtain ⟨hj, rfl⟩ := List.getElem?_eq_some_iff.mp hb
    exact h i (by omega)
  · intro h i hi
    exact h i _ _ (List.getElem?_eq_getElem (by omega)) (List.getElem?_eq_getElem (by omega))

omit [Env] in
theorem forall_mem_iff_getElem? {α : Type} {P : α → Prop} (l : List α) :
    (∀ a ∈ l, P a) ↔ ∀ (i : Nat) a, l[i]? = some a → P a := by
  constructor
  · intro h i a ha; exact h a (List.mem_of_getElem? ha)
  · intro h a ha
    obtain ⟨i, hi⟩ := List.mem_iff_getElem?.mp ha
    exact h i a hi

omit [Env] in
theorem dropLast_getElem? {α : Type} (l : List α) (i : Nat) (a : α) :
    l.dropLast[i]? = some a ↔ l[i]? = some a ∧ i + 1 ≠ l.length := by
  rw [List.getElem?_eq_some_iff, List.getElem?_eq_some_iff]
  simp only [List.length_dropLast, List.getElem_dropLast]
  constructor
  · rintro ⟨h, rfl⟩; exact ⟨⟨by omega, rfl⟩, by omega⟩
  · rintro ⟨⟨h, rfl⟩, h'⟩; exact ⟨by omega, rfl⟩

/-- The heart of soundness and completeness: the auth lists found are the admissible certificates. -/
theorem admissible_iff (hv : Lawful v bound) (roots : List PublicKey) (target : PublicKey) (c : Certificate) :
    Spec.Admissible (v.snapshot roots) target c ↔
      ∃ l, Good v target l ∧ Terminated roots l ∧ l.map (·.trust) = c.chain := by
  obtain ⟨ts⟩ := c
  show _ ↔ ∃ l, Good v target l ∧ Terminated roots l ∧ l.map (·.trust) = ts
  constructor
  · rintro ⟨⟨hlong, hroot, hlink, htarget⟩, hrev, hunr⟩
    simp only [View.snapshot] at hroot hlink
    match ts, hlong with
    | t0 :: t1 :: rest, _ =>
      obtain ⟨hr0, ht0⟩ := hroot t0 (by simp)
      have hget := fun i a => withIssuers_getElem? t0.issuedFor (t0 :: t1 :: rest) i a
      have hlen : (withIssuers t0.issuedFor (t0 :: t1 :: rest)).length = (t0 :: t1 :: rest).length := by
        rw [← List.length_map (f := fun a : Auth => a.trust), withIssuers_map]
      refine ⟨withIssuers t0.issuedFor (t0 :: t1 :: rest), ?_, ⟨rfl, hr0⟩, withIssuers_map _ _⟩
      -- the issuer of position p is k₀ or kₚ₋₁
      have hiss : ∀ p (a : Auth), (withIssuers t0.issuedFor (t0 :: t1 :: rest))[p]? = some a →
          ∃ b, (t0 :: t1 :: rest)[p - 1]? = some b ∧ a.issuedBy = b.issuedFor := by
        intro p a ha
        obtain ⟨h1, h2, h3⟩ := (hget p a).mp ha
        cases p with
        | zero => exact ⟨t0, by simp, h2 rfl⟩
        | succ p =>
          obtain ⟨hp, -⟩ := List.getElem?_eq_some_iff.mp h1
          exact ⟨(t0 :: t1 :: rest)[p], List.getElem?_eq_getElem (by omega),
            h3 p _ rfl (List.getElem?_eq_getElem (by omega))⟩
      rw [good_iff hv]
      refine ⟨by simp [withIssuers], ?_, ?_, withIssuers_isChain _ _, ?_, ?_, ?_⟩
      · rw [forall_mem_iff_getElem?]
        intro i a ha
        obtain ⟨h1, h2, h3⟩ := (hget i a).mp ha
        cases i with
        | zero =>
          have : a = ⟨t0, t0.issuedFor⟩ := by
            cases a; simp at h1 h2; simp [h1, h2]
          subst this; exact ht0
        | succ i =>
          obtain ⟨hi, -⟩ := List.getElem?_eq_some_iff.mp h1
          have hb := List.getElem?_eq_getElem (l := t0 :: t1 :: rest) (i := i) (by omega)
          have := hlink i _ a.trust hb h1
          rw [← h3 i _ rfl hb] at this
          exact this
      · intro a ha
        rw [List.getLast?_eq_getElem?, hlen] at ha
        exact htarget _ ((hget _ a).mp ha).1
      · rw [pairwise_iff_getElem?]
        intro p q a b hpq ha hb e
        obtain ⟨x, hx, hxa⟩ := hiss p a ha
        have hbt := ((hget q b).mp hb).1
        have := hrev (p - 1) q x b.trust (by omega) hx hbt (by rw [← hxa, e])
        omega
      · rw [pairwise_iff_getElem?]
        intro p q a b hpq ha hb hm
        rw [dropLast_getElem?] at ha hb
        obtain ⟨x, hx, hxa⟩ := hiss p a ha.1
        obtain ⟨y, hy, hyb⟩ := hiss q b hb.1
        rw [hlen] at ha hb
        by_cases hpq' : p - 1 < q - 1
        · exact hunr (p - 1) (q - 1) x y hpq' hx hy (by
            show q - 1 + 2 ≠ (t0 :: t1 :: rest).length
            have := hb.2
            obtain ⟨hq, -⟩ := List.getElem?_eq_some_iff.mp ((hget q b).mp hb.1).1
            omega) (by rw [← hxa, ← hyb]; exact hm)
        · -- p = 0 and q = 1: both issuers are the root
          have h0 : p = 0 := by omega
          have h1 : q = 1 := by omega
          subst h0; subst h1
          simp at hx hy
          subst hx; subst hy
          rw [hxa, hyb] at hm
          obtain ⟨r, hr, hre⟩ := List.mem_map.mp hm
          exact hv.excl _ _ ht0 r hr hre
      · rw [forall_mem_iff_getElem?]
        intro p a ha hm
        rw [dropLast_getElem?, hlen] at ha
        obtain ⟨x, hx, hxa⟩ := hiss p a ha.1
        have hlast := List.getElem?_eq_getElem (l := t0 :: t1 :: rest)
          (i := (t0 :: t1 :: rest).length - 1) (by simp)
        have htl := htarget _ hlast
        obtain ⟨hp, -⟩ := List.getElem?_eq_some_iff.mp ((hget p a).mp ha.1).1
        have := ha.2
        refine hunr (p - 1) _ x _ (by simp at hp this ⊢; omega) hx hlast (by simp) ?_
        rw [htl, ← hxa]; exact hm
  · rintro ⟨l, hg, ht, hmap⟩
    rw [good_iff hv] at hg
    obtain ⟨hne, hmem, hlast, hchain, hpw, hrv, hrt⟩ := hg
    match l, ht with
    | a0 :: a1 :: l, ht =>
      obtain ⟨hself, hroot⟩ := ht
      have heq := isChain_iff_withIssuers (a1 :: l) a0 hchain
      rw [hmap, hself] at heq
      have ht0 : ts[0]? = some a0.trust := by rw [← hmap]; rfl
      have hlen : (a0 :: a1 :: l).length = ts.length := by rw [← hmap, List.length_map]
      have hget := fun i a => withIssuers_getElem? a0.trust.issuedFor ts i a
      rw [← heq] at hget
      have hauth : ∀ (i : Nat) t, ts[i]? = some t → ∃ a : Auth, (a0 :: a1 :: l)[i]? = some a ∧ a.trust = t := by
        intro i t hti
        rw [← hmap, List.getElem?_map, Option.map_eq_some_iff] at hti
        exact hti
      rw [forall_mem_iff_getElem?] at hmem
      rw [pairwise_iff_getElem?] at hpw hrv
      have hiss : ∀ (i : Nat) t, ts[i]? = some t → i + 1 < ts.length →
          ∃ a : Auth, (a0 :: a1 :: l)[i + 1]? = some a ∧ a.issuedBy = t.issuedFor := by
        intro i t hti hi
        obtain ⟨a, ha, -⟩ := hauth (i + 1) _ (List.getElem?_eq_getElem hi)
        exact ⟨a, ha, ((hget (i + 1) a).mp ha).2.2 i t rfl hti⟩
      have h2 : 2 ≤ ts.length := by rw [← hlen]; simp
      have htrusted : ∀ (i : Nat) a b, ts[i]? = some a → ts[i + 1]? = some b →
          (⟨b, a.issuedFor⟩ : Auth) ∈ v.auths b.issuedFor := by
        intro i a b ha hb
        obtain ⟨x, hx, rfl⟩ := hauth _ _ hb
        have := ((hget _ x).mp hx).2.2 i a rfl ha
        have hm := hmem _ x hx
        cases x; simp at this hm ⊢; rw [← this]; exact hm
      have hselfroot : (⟨a0.trust, a0.trust.issuedFor⟩ : Auth) ∈ v.auths a0.trust.issuedFor := by
        have := hmem 0 a0 (by simp)
        cases a0; simp at hself this ⊢; rw [← hself]; rw [← hself] at this; exact this
      have htl : ∀ t, ts[ts.length - 1]? = some t → t.issuedFor = target := by
        intro t htt
        obtain ⟨a, ha, rfl⟩ := hauth _ _ htt
        apply hlast
        rw [List.getLast?_eq_getElem?, hlen]; exact ha
      refine ⟨⟨h2, ?_, htrusted, htl⟩, ?_, ?_⟩
      · intro t htt
        rw [ht0] at htt
        cases htt
        exact ⟨by rw [hself] at hroot; exact hroot, hselfroot⟩
      · intro i j a b hij ha hb e
        obtain ⟨hj, -⟩ := List.getElem?_eq_some_iff.mp hb
        change j < ts.length at hj
        obtain ⟨y, hy, rfl⟩ := hauth _ _ hb
        have hi : 0 < i := by
          rcases Nat.eq_zero_or_pos i with rfl | h
          · exfalso
            rw [ht0] at ha; cases ha
            exact hpw 0 j a0 y hij (by simp) hy (by rw [hself]; exact e)
          · exact h
        refine ⟨hi, ?_⟩
        by_contra hne'
        obtain ⟨x, hx, hxe⟩ := hiss i a ha (by omega)
        exact hpw (i + 1) j x y (by omega) hx hy (by rw [hxe]; exact e)
      · intro i j a b hij ha hb hj2 hrevd
        change j + 2 ≠ ts.length at hj2
        obtain ⟨hj, -⟩ := List.getElem?_eq_some_iff.mp hb
        change j < ts.length at hj
        obtain ⟨x, hx, hxe⟩ := hiss i a ha (by omega)
        simp only [View.snapshot] at hrevd
        by_cases hjl : j + 1 = ts.length
        · -- the target itself
          have : b.issuedFor = target := htl b (by rw [show ts.length - 1 = j by omega]; exact hb)
          by_cases hi : i + 2 = ts.length
          · have hij' : i + 1 = j := by omega
            subst hij'
            obtain ⟨r, hr, hre⟩ := List.mem_map.mp hrevd
            exact hv.excl _ _ (htrusted i a b ha hb) r hr hre
          · rw [forall_mem_iff_getElem?] at hrt
            refine hrt (i + 1) x ?_ (by rw [hxe, ← this]; exact hrevd)
            rw [dropLast_getElem?, hlen]
            exact ⟨hx, by omega⟩
        · obtain ⟨y, hy, hye⟩ := hiss j b hb (by omega)
          refine hrv (i + 1) (j + 1) x y (by omega) ?_ ?_ (by rw [hxe, hye]; exact hrevd)
          · rw [dropLast_getElem?, hlen]; exact ⟨hx, by omega⟩
          · rw [dropLast_getElem?, hlen]; exact ⟨hy, by omega⟩

/-- Different paths give different certificates. -/
theorem trusts_inj (hv : Lawful v bound) {roots : List PublicKey} {target : PublicKey} {l l' : List Auth}
    (hg : Good v target l) (ht : Terminated roots l) (hg' : Good v target l') (ht' : Terminated roots l')
    (e : l.map (·.trust) = l'.map (·.trust)) : l = l' := by
  match l, ht, l', ht' with
  | a :: b :: l, ht, a' :: b' :: l', ht' =>
    have h1 := isChain_iff_withIssuers _ _ ((good_iff hv _ _).mp hg).2.2.2.1
    have h2 := isChain_iff_withIssuers _ _ ((good_iff hv _ _).mp hg').2.2.2.1
    rw [h1, h2, e, ht.1, ht'.1]
    have : a.trust = a'.trust := (List.cons.inj e).1
    rw [this]

end TG.Search
