/-
C103: exactly how many SQL statements a query executes.
-/
import Verif.Proofs.Statements
import Verif.Props.Certs
import Verif.Props.Blowup

namespace TG
variable [Env]
open Search Spec

namespace Trails

theorem snoc {g : Snapshot} {target : PublicKey} {l : List Auth} {b a : Auth} :
    Trail g target (l ++ [b] ++ [a]) ↔ Trail g target (l ++ [b]) ∧ g.trusted a.issuedBy a.trust ∧ a.trust.issuedFor = b.issuedBy ∧
      (∀ x ∈ l ++ [b], a.issuedBy ≠ x.trust.issuedFor) ∧ ¬ g.revoked a.issuedBy target ∧
      ∀ (i : Nat) x, 0 < i → (l ++ [b])[i]? = some x → ¬ g.revoked a.issuedBy x.issuedBy := by
  have hlast : (l ++ [b] ++ [a])[(l ++ [b]).length]? = some a := by
    rw [List.getElem?_append_right (by simp)]
    simp
  have hsub : ∀ {i : Nat} {x}, (l ++ [b])[i]? = some x → (l ++ [b] ++ [a])[i]? = some x := fun {i x} h => by
    rw [List.getElem?_append_left (List.getElem?_eq_some_iff.mp h).1, h]
  have hlt : ∀ {i : Nat} {x}, (l ++ [b])[i]? = some x → i < (l ++ [b]).length := fun h => (List.getElem?_eq_some_iff.mp h).1
  have hcases : ∀ {i : Nat} {x}, (l ++ [b] ++ [a])[i]? = some x → (l ++ [b])[i]? = some x ∨ i = (l ++ [b]).length ∧ x = a := by
    intro i x h
    by_cases hi : i < (l ++ [b]).length
    · rw [List.getElem?_append_left hi] at h
      exact .inl h
    · rw [List.getElem?_append_right (by omega)] at h
      obtain ⟨h1, h2⟩ := List.getElem?_eq_some_iff.mp h
      simp only [List.length_singleton] at h1
      exact .inr ⟨by omega, by simp only [List.getElem_singleton] at h2; exact h2.symm⟩
  have hb : (l ++ [b])[l.length]? = some b := by simp
  constructor
  · intro h
    refine ⟨⟨by simp, fun x hx => h.present x (List.mem_append_left _ hx), fun x hx => h.first x (hsub hx), fun i x y hx hy => h.link i x y (hsub hx) (hsub hy),
      fun i j x y hij hx hy => h.noRevisit i j x y hij (hsub hx) (hsub hy), fun j y hj hy => h.unrevoked j y hj (hsub hy),
      fun i j x y hi hij hx hy => h.unrevokedIssuers i j x y hi hij (hsub hx) (hsub hy)⟩, h.present a (by simp), ?_, ?_, ?_, ?_⟩
    · exact h.link l.length b a (hsub hb) (by rw [← hlast]; simp)
    · intro x hx
      obtain ⟨i, hi, rfl⟩ := List.getElem_of_mem hx
      exact h.noRevisit i _ _ a hi (hsub (List.getElem?_eq_getElem hi)) hlast
    · exact h.unrevoked _ a (by simp) hlast
    · exact fun i x hi hx => h.unrevokedIssuers i _ x a hi (hlt hx) (hsub hx) hlast
  · rintro ⟨h, h1, h2, h3, h4, h5⟩
    refine ⟨by simp, ?_, ?_, ?_, ?_, ?_, ?_⟩
    · intro x hx
      rcases List.mem_append.mp hx with hx | hx
      · exact h.present x hx
      · rw [List.mem_singleton.mp hx]; exact h1
    · intro x hx
      rcases hcases hx with hx | ⟨hx, -⟩
      · exact h.first x hx
      · simp at hx
    · intro i x y hx hy
      rcases hcases hy with hy | ⟨hi, rfl⟩
      · rcases hcases hx with hx | ⟨hi, -⟩
        · exact h.link i x y hx hy
        · have := hlt hy
          omega
      · have hil : i = l.length := by simp at hi; omega
        subst hil
        rcases hcases hx with hx | ⟨hi', -⟩
        · rw [hb] at hx
          cases hx
          exact h2
        · omega
    · intro i j x y hij hx hy
      rcases hcases hy with hy | ⟨hj, rfl⟩
      · rcases hcases hx with hx | ⟨hi, -⟩
        · exact h.noRevisit i j x y hij hx hy
        · have := hlt hy
          omega
      · rcases hcases hx with hx | ⟨hi, -⟩
        · exact h3 x (List.mem_of_getElem? hx)
        · omega
    · intro j y hj hy
      rcases hcases hy with hy | ⟨-, rfl⟩
      · exact h.unrevoked j y hj hy
      · exact h4
    · intro i j x y hi hij hx hy
      rcases hcases hy with hy | ⟨hj, rfl⟩
      · rcases hcases hx with hx | ⟨hi, -⟩
        · exact h.unrevokedIssuers i j x y hi hij hx hy
        · have := hlt hy
          omega
      · rcases hcases hx with hx | ⟨hi, -⟩
        · exact h5 i x hi hx
        · omega

/-- The graph that a view shows. -/
structure Shows (v : View) (g : Snapshot) : Prop where
  auths : ∀ k a, a ∈ v.auths k ↔ g.trusted a.issuedBy a.trust ∧ a.trust.issuedFor = k
  revs : ∀ k b, (∃ r ∈ v.revs k, r.revokedBy = b) ↔ g.revoked b k

theorem mem_revokers {v : View} {g : Snapshot} (h : Shows v g) {target b : PublicKey} (x : Auth) (l : List Auth) :
    b ∈ revokers v target (x :: l).reverse ↔ g.revoked b target ∨ ∃ (i : Nat) (y : Auth), 0 < i ∧ (x :: l)[i]? = some y ∧ g.revoked b y.issuedBy := by
  induction l using List.reverseRecOn with
  | nil =>
    rw [List.reverse_singleton, revokers, List.mem_map, h.revs]
    refine ⟨.inl, ?_⟩
    rintro (h | ⟨i, y, hi, hy, -⟩)
    · exact h
    · have := (List.getElem?_eq_some_iff.mp hy).1
      simp only [List.length_singleton] at this
      omega
  | append_singleton l a ih =>
    have e : ∃ c l', (x :: l).reverse = c :: l' := by
      rcases hc : (x :: l).reverse with _ | ⟨c, l'⟩
      · simp at hc
      · exact ⟨c, l', rfl⟩
    obtain ⟨c, l', e⟩ := e
    have e2 : (x :: (l ++ [a])).reverse = a :: c :: l' := by
      rw [← List.cons_append, List.reverse_append, e]
      rfl
    rw [e2, revokers, List.mem_append, ← e, ih, List.mem_map, h.revs, or_assoc]
    refine or_congr_right ?_
    rw [← List.cons_append]
    constructor
    · rintro (⟨i, y, hi, hy, hr⟩ | hr)
      · exact ⟨i, y, hi, by rw [List.getElem?_append_left (List.getElem?_eq_some_iff.mp hy).1, hy], hr⟩
      · exact ⟨(x :: l).length, a, by simp, by rw [List.getElem?_append_right (le_refl _)]; simp, hr⟩
    · rintro ⟨i, y, hi, hy, hr⟩
      by_cases hlt : i < (x :: l).length
      · rw [List.getElem?_append_left hlt] at hy
        exact .inl ⟨i, y, hi, hy, hr⟩
      · rw [List.getElem?_append_right (by omega)] at hy
        have := List.mem_of_getElem? hy
        rw [List.mem_singleton.mp this] at hr
        exact .inr hr

/-- The chains of the search are the trails. -/
theorem good_iff {v : View} {g : Snapshot} (h : Shows v g) {target : PublicKey} (l : List Auth) : Good v target l.reverse ↔ Trail g target l := by
  induction l using List.reverseRecOn with
  | nil => exact ⟨fun h => h.elim, fun h => absurd rfl h.start⟩
  | append_singleton l a ih =>
    rcases List.eq_nil_or_concat l with rfl | ⟨l, b, rfl⟩
    · rw [List.nil_append, List.reverse_singleton, Good, h.auths]
      constructor
      · rintro ⟨h1, h2⟩
        have key : ∀ (i : Nat) x, [a][i]? = some x → i = 0 ∧ x = a := by
          intro i x hx
          have := (List.getElem?_eq_some_iff.mp hx).1
          exact ⟨by simpa using this, List.mem_singleton.mp (List.mem_of_getElem? hx)⟩
        refine ⟨by simp, ?_, ?_, ?_, ?_, ?_, ?_⟩
        · intro x hx; rw [List.mem_singleton.mp hx]; exact h1
        · intro x hx; rw [(key _ _ hx).2]; exact h2
        · intro i x y _ hy; have := (key _ _ hy).1; omega
        · intro i j x y hij _ hy; have := (key _ _ hy).1; omega
        · intro j y hj hy; have := (key _ _ hy).1; omega
        · intro i j x y _ hij _ hy; have := (key _ _ hy).1; omega
      · intro ht
        exact ⟨ht.present a (by simp), ht.first a rfl⟩
    · rw [List.concat_eq_append] at ih ⊢
      have e : (l ++ [b] ++ [a]).reverse = a :: b :: l.reverse := by simp
      have e' : (l ++ [b]).reverse = b :: l.reverse := by simp
      obtain ⟨x, l', hx⟩ : ∃ x l', l ++ [b] = x :: l' := by
        rcases hc : l ++ [b] with _ | ⟨x, l'⟩
        · simp at hc
        · exact ⟨x, l', rfl⟩
      rw [e, Good, ← e', ih, snoc, h.auths]
      have hm : a.issuedBy ∉ (l ++ [b]).reverse.map (·.trust.issuedFor) ↔ ∀ x ∈ l ++ [b], a.issuedBy ≠ x.trust.issuedFor := by
        simp only [List.mem_map, List.mem_reverse, not_exists, not_and]
        exact ⟨fun h x hx e => h x hx e.symm, fun h x hx e => h x hx e.symm⟩
      rw [hm, hx, mem_revokers h, not_or]
      constructor
      · rintro ⟨h1, ⟨h2, h3⟩, ⟨h4, h5⟩, h6⟩
        exact ⟨h1, h2, h3, h6, h4, fun i y hi hy hr => h5 ⟨i, y, hi, hy, hr⟩⟩
      · rintro ⟨h1, h2, h3, h6, h4, h5⟩
        exact ⟨h1, ⟨h2, h3⟩, ⟨h4, fun ⟨i, y, hi, hy, hr⟩ => h5 i y hi hy hr⟩, h6⟩

/-- All chains of the search. -/
def all (v : View) (target : PublicKey) (n : Nat) : List (List Auth) := (List.range n).flatMap (fun k => (level v target k).map Chain.auths)

theorem length_all (v : View) (target : PublicKey) (n : Nat) : (all v target n).length = total v target n := by
  induction n with
  | zero => rfl
  | succ n ih =>
    unfold all at ih ⊢
    rw [List.range_succ, List.flatMap_append, List.length_append, ih, total]
    simp

theorem nodup_all {v : View} {bound : Nat} (hv : Lawful v bound) (target : PublicKey) (n : Nat) : (all v target n).Nodup := by
  unfold all
  rw [List.nodup_flatMap]
  refine ⟨fun k _ => List.Nodup.map_on (fun c hc c' hc' e => auths_inj_level hc hc' e) (level_nodup hv target k), ?_⟩
  refine List.Pairwise.imp ?_ List.nodup_range
  intro k k' hne l hl hl'
  obtain ⟨c, hc, rfl⟩ := List.mem_map.mp hl
  obtain ⟨c', hc', e⟩ := List.mem_map.mp hl'
  have h1 := auths_length_of_level hc
  have h2 := auths_length_of_level hc'
  rw [e] at h2
  omega

theorem mem_all {v : View} {bound : Nat} (hv : Lawful v bound) (target : PublicKey) (l : List Auth) : l ∈ all v target bound ↔ Good v target l.reverse := by
  unfold all
  simp only [List.mem_flatMap, List.mem_range, List.mem_map]
  constructor
  · rintro ⟨k, -, c, hc, rfl⟩
    exact ((mem_level_rev v target k _).mp ⟨c, hc, rfl⟩).2
  · intro hg
    have hlen := hg.length_le hv
    have hne : l.reverse.length ≠ 0 := by
      intro h0
      rw [List.length_eq_zero_iff.mp h0] at hg
      exact hg
    obtain ⟨c, hc, hr⟩ := (mem_level_rev v target (l.reverse.length - 1) l.reverse).mpr ⟨by omega, hg⟩
    exact ⟨l.reverse.length - 1, by omega, c, hc, by simpa [rev] using hr⟩

theorem shows {db : Db} (hh : db.Healthy) (now : Dur) : Shows (db.collect now).view (db.snapshot now) where
  auths k a := by
    rw [Db.mem_view_auths (hh.collect now), Db.stored_collect]
    constructor
    · rintro ⟨⟨h1, h2⟩, h3⟩
      exact ⟨⟨h1, h2 a rfl⟩, h3⟩
    · rintro ⟨⟨h1, h2⟩, h3⟩
      exact ⟨⟨h1, fun a' e => by cases e; exact h2⟩, h3⟩
  revs k b := by
    simp only [Db.mem_view_revs (hh.collect now), Db.stored_collect]
    constructor
    · rintro ⟨r, ⟨⟨h1, -⟩, h2⟩, h3⟩
      exact ⟨r, h1, h3, h2⟩
    · rintro ⟨r, h1, h3, h2⟩
      exact ⟨r, ⟨⟨h1, fun a e => by cases e⟩, h2⟩, h3⟩

end Trails

open Trails in
/-- **C103** (exactly what a query costs).  The question for the certificates of a key goes over all trails that begin at the key, whether they lead to a root or not.  It
executes four SQL statements, two for each trail, less one for each trust in the key itself. -/
theorem C103_statements {db : Db} (hr : Reachable db) (target : PublicKey) (now : Dur) :
    ∃ (trails : List (List Auth)) (cost : Nat) (cs : List Certificate), trails.Nodup ∧ (∀ l, l ∈ trails ↔ Trail (db.snapshot now) target l) ∧
      cost + (trails.filter (fun l => l.length = 1)).length = 4 + 2 * trails.length ∧
      (∀ fs, ((TrustGraph.getAllCerts target now) { db with faults := List.replicate cost false ++ fs }) = (.ok cs, { db.collect now with faults := fs })) ∧
      ∀ n < cost, ∀ fs, ((TrustGraph.getAllCerts target now) { db with faults := List.replicate n false ++ true :: fs }).1 = .err .internalStorageError := by
  have hh := hr.healthy
  have hv := Db.view_lawful (hh.collect now)
  have hx := Db.getAllCerts_executes hh target now
  refine ⟨all (db.collect now).view target (db.collect now).relations.length, _, _, nodup_all hv _ _, fun l => (mem_all hv _ _).trans (good_iff (shows hh now) l), ?_,
    hx.done, hx.stops⟩
  have key : ∀ n, ((all (db.collect now).view target n).filter (fun l => l.length = 1)).length = if n = 0 then 0 else ((db.collect now).view.auths target).length := by
    intro n
    induction n with
    | zero => rfl
    | succ n ih =>
      unfold all at ih ⊢
      rw [List.range_succ, List.flatMap_append, List.filter_append, List.length_append, ih, if_neg (Nat.succ_ne_zero n)]
      cases n with
      | zero =>
        simp only [level, List.flatMap_singleton, List.map_map]
        rw [List.filter_eq_self.mpr]
        · simp
        · intro l hl
          obtain ⟨a, -, rfl⟩ := List.mem_map.mp hl
          rfl
      | succ n =>
        rw [List.filter_eq_nil_iff.mpr]
        · simp
        · intro l hl
          rw [List.flatMap_singleton] at hl
          obtain ⟨c, hc, rfl⟩ := List.mem_map.mp hl
          rw [auths_length_of_level hc]
          simp
  have hle : ((db.collect now).view.auths target).length ≤ total (db.collect now).view target (db.collect now).relations.length ∧
      ((db.collect now).relations.length = 0 → ((db.collect now).view.auths target).length = 0) := by
    have h1 := auths_length_le hv target
    refine ⟨?_, by omega⟩
    rcases hn : (db.collect now).relations.length with _ | n
    · omega
    · have : ∀ n, (level (db.collect now).view target 0).length ≤ total (db.collect now).view target (n + 1) := by
        intro n
        induction n with
        | zero => simp [total]
        | succ n ih => rw [total]; omega
      have := this n
      rwa [level, List.length_map] at this
  rw [key, length_all]
  split
  · have := hle.2 (by assumption)
    omega
  · omega

namespace Trails

omit [Env] in
theorem sum_range_le (f : Nat → Nat) {a b : Nat} (h : a ≤ b) : ((List.range a).map f).sum ≤ ((List.range b).map f).sum := by
  induction h with
  | refl => exact le_refl _
  | step _ ih =>
    rw [List.range_succ, List.map_append, List.sum_append]
    omega

theorem level_le {v : View} {d : Nat} (hd : ∀ k, (v.auths k).length ≤ d) (target : PublicKey) (k : Nat) : (level v target k).length ≤ d ^ (k + 1) := by
  induction k with
  | zero =>
    rw [level, List.length_map, Nat.zero_add, Nat.pow_one]
    exact hd target
  | succ k ih =>
    rw [level, List.length_flatMap]
    have key : ∀ L : List Chain, (L.map (fun c => (ext v c).length)).sum ≤ L.length * d := by
      intro L
      induction L with
      | nil => simp
      | cons c L ihL =>
        rw [List.map_cons, List.sum_cons, List.length_cons, Nat.succ_mul]
        have : (ext v c).length ≤ d := by
          unfold ext
          rw [List.length_map]
          exact le_trans (List.length_filter_le _ _) (hd _)
        omega
    calc _ ≤ (level v target k).length * d := key _
      _ ≤ d ^ (k + 1) * d := Nat.mul_le_mul_right _ ih
      _ = d ^ (k + 1 + 1) := by rw [← Nat.pow_succ]

end Trails

open Trails in
/-- No trail is longer than the number of stored trusts and revocations. -/
theorem trail_length {db : Db} (hr : Reachable db) {target : PublicKey} {now : Dur} {l : List Auth} (h : Trail (db.snapshot now) target l) :
    l.length ≤ db.relations.length := by
  have hg := (good_iff (shows hr.healthy now) l).mpr h
  have := hg.length_le (Db.view_lawful (hr.healthy.collect now))
  rw [List.length_reverse] at this
  exact le_trans this (List.length_filter_le _ _)

open Trails in
/-- **C103** (what holds of the cost).  If nobody is trusted by more than `d` keys and no trail from the key is longer than `m`, the question for its certificates executes
at most `4 + 2 (d + d² + ⋯ + dᵐ)` SQL statements: with that many statements that succeed it is answered. -/
theorem C103_statements_partial {db : Db} (hr : Reachable db) {target : PublicKey} {now : Dur} {d m : Nat}
    (hd : ∀ k (l : List Auth), l.Nodup → (∀ a ∈ l, db.Stored (.auth a) ∧ a.trust.issuedFor = k) → l.length ≤ d)
    (hm : ∀ l, Trail (db.snapshot now) target l → l.length ≤ m) :
    ∃ (cost : Nat) (cs : List Certificate), cost ≤ 4 + 2 * ((List.range m).map (fun k => d ^ (k + 1))).sum ∧
      ∀ fs, (TrustGraph.getAllCerts target now) { db with faults := List.replicate cost false ++ fs } = (.ok cs, { db.collect now with faults := fs }) := by
  have hh := hr.healthy
  have hv := Db.view_lawful (hh.collect now)
  refine ⟨_, _, ?_, (Db.getAllCerts_executes hh target now).done⟩
  have hdeg : ∀ k, ((db.collect now).view.auths k).length ≤ d := by
    intro k
    refine hd k _ (hv.nodup k) fun a ha => ?_
    obtain ⟨h1, h2⟩ := (Db.mem_view_auths (hh.collect now)).mp ha
    exact ⟨((Db.stored_collect now).mp h1).1, h2⟩
  have hnil : ∀ k, m ≤ k → (level (db.collect now).view target k).length = 0 := by
    intro k hk
    rw [List.length_eq_zero_iff, List.eq_nil_iff_forall_not_mem]
    intro c hc
    have h1 := ((mem_level_rev _ target k _).mp ⟨c, hc, rfl⟩).2
    have h2 := hm c.auths ((good_iff (shows hh now) _).mp h1)
    rw [auths_length_of_level hc] at h2
    omega
  have key : ∀ n, total (db.collect now).view target n ≤ ((List.range m).map (fun k => d ^ (k + 1))).sum := by
    have small : ∀ n, n ≤ m → total (db.collect now).view target n ≤ ((List.range n).map (fun k => d ^ (k + 1))).sum := by
      intro n
      induction n with
      | zero => exact fun _ => le_refl _
      | succ n ih =>
        intro hn
        have h1 := ih (by omega)
        have h2 := level_le hdeg target n
        rw [total, List.range_succ, List.map_append, List.sum_append, List.map_singleton, List.sum_singleton]
        omega
    intro n
    induction n with
    | zero => exact Nat.zero_le _
    | succ n ih =>
      by_cases hn : n + 1 ≤ m
      · have h1 := small (n + 1) hn
        have h2 : ((List.range (n + 1)).map (fun k => d ^ (k + 1))).sum ≤ ((List.range m).map (fun k => d ^ (k + 1))).sum :=
          sum_range_le _ hn
        omega
      · have := hnil n (by omega)
        rw [total]
        omega
  have := key (db.collect now).relations.length
  omega

end TG
