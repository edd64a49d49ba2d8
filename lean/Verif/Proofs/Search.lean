/-
Theory of the breadth-first search of `TrustGraph::bf_search_paths`: helper lemmas only.

The storage is abstracted to two functions: the authorizations and the revocations of a key.
-/
import Verif.Model.Graph
import Mathlib.Data.List.Nodup
import Mathlib.Data.List.Perm.Subperm

namespace TG.Search
variable [Env]

/-- What the search can see. -/
structure View where
  auths : PublicKey → List Auth
  revs : PublicKey → List Revocation

variable (v : View)

/-- Pure version of `extendAll` over all authorizations of the last issuer. -/
def ext (c : Chain) : List Chain :=
  ((v.auths c.last.issuedBy).filter (fun a => c.canBeExtendedBy a.issuedBy)).map
    (fun a => (c.addRevocations (v.revs a.issuedBy)).push a)

/-- Pure version of the loop; `none` is running out of fuel. -/
def loop (roots : List PublicKey) :
    Nat → List Chain → List (List Auth) → Option (List (List Auth))
  | _, [], acc => some acc
  | 0, _ :: _, _ => none
  | fuel + 1, cur :: queue, acc =>
    loop roots fuel (queue ++ ext v cur)
      (if TrustGraph.isTerminated roots cur then acc ++ [cur.auths] else acc)

/-- The chains of `k + 1` auths, in the order in which they are dequeued. -/
def level (target : PublicKey) : Nat → List Chain
  | 0 => (v.auths target).map (fun a => Chain.new a (v.revs target))
  | k + 1 => (level target k).flatMap (ext v)

/-- The auths of the terminated chains of a list. -/
def done (roots : List PublicKey) (q : List Chain) : List (List Auth) :=
  (q.filter (TrustGraph.isTerminated roots)).map Chain.auths

theorem loop_step (roots : List PublicKey) (q r : List Chain) (acc : List (List Auth)) (f : Nat) :
    loop v roots (q.length + f) (q ++ r) acc =
      loop v roots f (r ++ q.flatMap (ext v)) (acc ++ done roots q) := by
  induction q generalizing r acc with
  | nil => simp [done]
  | cons c q ih =>
    have : (c :: q).length + f = (q.length + f) + 1 := by simp; omega
    rw [this, List.cons_append, loop, List.append_assoc, ih, List.flatMap_cons, List.append_assoc]
    congr 1
    unfold done
    by_cases h : TrustGraph.isTerminated roots c = true
    · simp [h]
    · simp [h]

/-- Number of chains on the first `m` levels. -/
def total (target : PublicKey) : Nat → Nat
  | 0 => 0
  | m + 1 => total target m + (level v target m).length

theorem loop_levels (roots : List PublicKey) (target : PublicKey) (m f : Nat) :
    loop v roots (total v target m + f) (level v target 0) [] =
      loop v roots f (level v target m)
        ((List.range m).flatMap (fun k => done roots (level v target k))) := by
  induction m generalizing f with
  | zero => simp [total]
  | succ m ih =>
    have := loop_step v roots (level v target m) []
      ((List.range m).flatMap (fun k => done roots (level v target k))) f
    rw [List.append_nil, List.nil_append] at this
    rw [total, Nat.add_assoc, ih, this, List.range_succ, List.flatMap_append]
    simp [level]

/-! ### Connection with the monadic loop -/

section monadic
variable {S σ : Type} [Storage S σ]

/-- Reading the storage in state `s` gives the view and does not change the state. -/
structure Reads (s : S) : Prop where
  auths : ∀ pk, Storage.getAuthorizations pk s = (.ok (v.auths pk), s)
  revs : ∀ pk, Storage.getRevocations pk s = (.ok (v.revs pk), s)

variable {v} {s : S}

omit [Env] [Storage S σ] in
theorem storage_ok {α : Type} {x : M S σ α} {s s' : S} {a : α} (h : x s = (.ok a, s')) :
    TrustGraph.storage x s = (.ok a, s') := by
  unfold TrustGraph.storage; rw [M.mapErr_run, h]; rfl

omit [Env] [Storage S σ] in
theorem storage_err {α : Type} {x : M S σ α} {s s' : S} {e : σ} (h : x s = (.err e, s')) :
    TrustGraph.storage x s = (.err .internalStorageError, s') := by
  unfold TrustGraph.storage; rw [M.mapErr_run, h]; rfl

theorem extendAll_eq (h : Reads v s) (c : Chain) (l : List Auth) :
    TrustGraph.extendAll c l s = (.ok ((l.filter (fun a => c.canBeExtendedBy a.issuedBy)).map
      (fun a => (c.addRevocations (v.revs a.issuedBy)).push a)), s) := by
  induction l with
  | nil => rfl
  | cons a l ih =>
    unfold TrustGraph.extendAll
    by_cases hc : c.canBeExtendedBy a.issuedBy = true
    · rw [if_pos hc, M.bind_run_ok (storage_ok (h.revs a.issuedBy)), M.bind_run_ok ih]
      simp [hc]
    · rw [if_neg hc, ih]; simp [hc]

theorem bfLoop_eq (h : Reads v s) (roots : List PublicKey) (fuel : Nat) (q : List Chain)
    (acc : List (List Auth)) :
    TrustGraph.bfLoop roots fuel q acc s =
      ((match loop v roots fuel q acc with
        | some r => .ok r
        | none => .diverge), s) := by
  induction fuel generalizing q acc with
  | zero => cases q <;> rfl
  | succ fuel ih =>
    cases q with
    | nil => rfl
    | cons c q =>
      rw [TrustGraph.bfLoop, M.bind_run_ok (storage_ok (h.auths _)), M.bind_run_ok (extendAll_eq h _ _), ih]
      rfl

theorem bfSearchPaths_eq (h : Reads v s) (roots : List PublicKey) (target : PublicKey) :
    TrustGraph.bfSearchPaths target roots s =
      ((match loop v roots ((Storage.ghostBound s + 1) ^ (Storage.ghostBound s + 1) + 1)
          (level v target 0) [] with
        | some r => .ok r
        | none => .diverge), s) := by
  unfold TrustGraph.bfSearchPaths
  rw [M.bind_run_ok (storage_ok (h.auths _)), M.bind_run_ok (storage_ok (h.revs _)), bfLoop_eq h]
  rfl

end monadic

/-! ### Chains as lists, root end first -/

/-- The auths of a chain, last pushed first. -/
def rev (c : Chain) : List Auth := c.auths.reverse

/-- The keys excluded by revocations when a chain with these auths (last pushed first) is extended. -/
def revokers (target : PublicKey) : List Auth → List PublicKey
  | [] => (v.revs target).map (·.revokedBy)
  | [_] => (v.revs target).map (·.revokedBy)
  | a :: b :: l => revokers target (b :: l) ++ (v.revs a.issuedBy).map (·.revokedBy)

/-- The lists of auths the search builds, last pushed first. -/
def Good (target : PublicKey) : List Auth → Prop
  | [] => False
  | [a] => a ∈ v.auths target
  | a :: b :: l => Good target (b :: l) ∧ a ∈ v.auths b.issuedBy ∧
      a.issuedBy ∉ revokers v target (b :: l) ∧ a.issuedBy ∉ (b :: l).map (·.trust.issuedFor)

/-- The chain with given auths (last pushed first, non-empty). -/
def ofRev (target : PublicKey) : List Auth → Option Chain
  | [] => none
  | [a] => some (Chain.new a (v.revs target))
  | a :: b :: l => (ofRev target (b :: l)).map
      (fun c => (c.addRevocations (v.revs a.issuedBy)).push a)

@[simp] theorem auths_push (c : Chain) (a : Auth) : (c.push a).auths = c.auths ++ [a] := by
  simp [Chain.push, Chain.auths]

@[simp] theorem auths_addRevocations (c : Chain) (rs : List Revocation) :
    (c.addRevocations rs).auths = c.auths := rfl

theorem last_eq_getLast (c : Chain) : c.last = c.auths.getLast (by simp [Chain.auths]) := by
  unfold Chain.last Chain.auths
  cases h : c.tail with
  | nil => rfl
  | cons b l =>
    simp [List.getLastD]

theorem rev_push (c : Chain) (rs : List Revocation) (a : Auth) :
    rev ((c.addRevocations rs).push a) = a :: rev c := by
  simp [rev]

theorem rev_eq_cons_last (c : Chain) : ∃ l, rev c = c.last :: l := by
  refine ⟨c.auths.dropLast.reverse, ?_⟩
  unfold rev
  conv_lhs => rw [← List.dropLast_append_getLast (l := c.auths) (by simp [Chain.auths])]
  rw [List.reverse_append, ← last_eq_getLast]; rfl

theorem mem_level_iff (target : PublicKey) (k : Nat) (c : Chain) :
    c ∈ level v target k ↔
      (rev c).length = k + 1 ∧ Good v target (rev c) ∧ ofRev v target (rev c) = some c ∧
        c.revokedBy = revokers v target (rev c) := by
  induction k generalizing c with
  | zero =>
    simp only [level, List.mem_map]
    constructor
    · rintro ⟨a, ha, rfl⟩
      refine ⟨rfl, ha, rfl, ?_⟩
      simp [Chain.new, Chain.addRevocations, rev, Chain.auths, revokers]
    · rintro ⟨hl, hg, ho, -⟩
      obtain ⟨a, ha⟩ := List.length_eq_one_iff.mp hl
      rw [ha] at hg ho
      exact ⟨a, hg, by simpa [ofRev] using ho⟩
  | succ k ih =>
    simp only [level, List.mem_flatMap]
    constructor
    · rintro ⟨c', hc', hc⟩
      obtain ⟨hl, hg, ho, hr⟩ := (ih c').mp hc'
      simp only [ext, List.mem_map, List.mem_filter] at hc
      obtain ⟨a, ⟨ha, hext⟩, rfl⟩ := hc
      obtain ⟨l, hlast⟩ := rev_eq_cons_last c'
      have hrp := rev_push c' (v.revs a.issuedBy) a
      simp only [Chain.canBeExtendedBy, Bool.and_eq_true, Bool.not_eq_true', List.contains_eq_mem,
        decide_eq_false_iff_not, List.any_eq_false, beq_iff_eq] at hext
      rw [hrp, hlast]
      rw [hlast] at hl hg ho hr
      refine ⟨by simpa using hl, ⟨hg, ha, ?_, ?_⟩, ?_, ?_⟩
      · rw [← hr]; exact hext.1
      · intro hm
        obtain ⟨x, hx, hxe⟩ := List.mem_map.mp hm
        have : x ∈ c'.auths := by
          rw [← hlast] at hx
          simpa [rev] using hx
        exact hext.2 x this hxe
      · rw [ofRev, ho]; rfl
      · rw [revokers, ← hr]; rfl
    · rintro ⟨hl, hg, ho, hr⟩
      match hrc : rev c, hl, hg, ho, hr with
      | [a], hl, _, _, _ => simp at hl
      | a :: b :: l, hl, hg, ho, hr =>
        obtain ⟨hg', ha, hnr, hnv⟩ := hg
        rw [ofRev, Option.map_eq_some_iff] at ho
        obtain ⟨c', hc', rfl⟩ := ho
        rw [rev_push] at hrc
        have hrc' : rev c' = b :: l := by simpa using hrc
        refine ⟨c', ?_, ?_⟩
        · rw [ih, hrc']
          refine ⟨by rw [rev_push, hrc'] at hl; simpa using hl, hg', hc', ?_⟩
          have : c'.revokedBy ++ (v.revs a.issuedBy).map (·.revokedBy) =
              revokers v target (b :: l) ++ (v.revs a.issuedBy).map (·.revokedBy) := hr
          exact List.append_cancel_right this
        · obtain ⟨l', hlast⟩ := rev_eq_cons_last c'
          rw [hrc'] at hlast
          have hb : b = c'.last := by simpa using (List.cons.inj hlast).1
          have hr' : c'.revokedBy = revokers v target (b :: l) := by
            have : c'.revokedBy ++ (v.revs a.issuedBy).map (·.revokedBy) =
                revokers v target (b :: l) ++ (v.revs a.issuedBy).map (·.revokedBy) := hr
            exact List.append_cancel_right this
          simp only [ext, List.mem_map, List.mem_filter]
          refine ⟨a, ⟨by rw [← hb]; exact ha, ?_⟩, rfl⟩
          simp only [Chain.canBeExtendedBy, Bool.and_eq_true, Bool.not_eq_true', List.contains_eq_mem,
            decide_eq_false_iff_not, List.any_eq_false, beq_iff_eq]
          refine ⟨by rw [hr']; exact hnr, ?_⟩
          intro x hx hxe
          apply hnv
          refine List.mem_map.mpr ⟨x, ?_, hxe⟩
          rw [← hrc']; simpa [rev] using hx

theorem ofRev_isSome (target : PublicKey) (l : List Auth) (h : l ≠ []) :
    ∃ c, ofRev v target l = some c ∧ rev c = l ∧ c.revokedBy = revokers v target l := by
  match l, h with
  | [a], _ => exact ⟨_, rfl, rfl, by simp [Chain.new, Chain.addRevocations, revokers]⟩
  | a :: b :: l, _ =>
    obtain ⟨c, hc, hr, hv⟩ := ofRev_isSome target (b :: l) (by simp)
    refine ⟨(c.addRevocations (v.revs a.issuedBy)).push a, by rw [ofRev, hc]; rfl, by rw [rev_push, hr], ?_⟩
    rw [revokers, ← hv]; rfl

/-- Which lists of auths occur on a level. -/
theorem mem_level_rev (target : PublicKey) (k : Nat) (l : List Auth) :
    (∃ c ∈ level v target k, rev c = l) ↔ l.length = k + 1 ∧ Good v target l := by
  constructor
  · rintro ⟨c, hc, rfl⟩
    obtain ⟨h1, h2, -, -⟩ := (mem_level_iff v target k c).mp hc
    exact ⟨h1, h2⟩
  · rintro ⟨h1, h2⟩
    obtain ⟨c, hc, hr, hv⟩ := ofRev_isSome v target l (by rintro rfl; simp at h1)
    refine ⟨c, ?_, hr⟩
    rw [mem_level_iff v, hr]
    exact ⟨h1, h2, hc, hv⟩

theorem rev_inj_level {target : PublicKey} {k k' : Nat} {c c' : Chain} (h : c ∈ level v target k)
    (h' : c' ∈ level v target k') (e : rev c = rev c') : c = c' := by
  obtain ⟨-, -, h3, -⟩ := (mem_level_iff v target k c).mp h
  obtain ⟨-, -, h3', -⟩ := (mem_level_iff v target k' c').mp h'
  rw [e, h3'] at h3
  exact (Option.some.inj h3).symm

/-! ### Facts about the view that a healthy storage guarantees -/

/-- The laws of a view: relations are listed under their subject, once; a key has not both trusted and revoked
the same subject; there are finitely many auths (`bound` many). -/
structure Lawful (v : View) (bound : Nat) : Prop where
  auth_for : ∀ pk, ∀ a ∈ v.auths pk, a.trust.issuedFor = pk
  rev_for : ∀ pk, ∀ r ∈ v.revs pk, r.pk = pk
  nodup : ∀ pk, (v.auths pk).Nodup
  excl : ∀ pk, ∀ a ∈ v.auths pk, ∀ r ∈ v.revs pk, r.revokedBy ≠ a.issuedBy
  finite : ∃ U : List Auth, U.length ≤ bound ∧ ∀ pk, ∀ a ∈ v.auths pk, a ∈ U

variable {v} {bound : Nat}

theorem level_nodup (hv : Lawful v bound) (target : PublicKey) (k : Nat) : (level v target k).Nodup := by
  induction k with
  | zero =>
    rw [level]
    refine List.Nodup.map_on ?_ (hv.nodup target)
    intro a _ b _ h
    have := congrArg Chain.head h
    simpa [Chain.new, Chain.addRevocations] using this
  | succ k ih =>
    rw [level, List.nodup_flatMap]
    refine ⟨?_, ?_⟩
    · intro c _
      refine List.Nodup.map_on ?_ ((hv.nodup _).filter _)
      intro a _ b _ h
      have := congrArg rev h
      rw [rev_push, rev_push] at this
      exact (List.cons.inj this).1
    · refine List.Pairwise.imp_of_mem ?_ ih
      intro c c' hc hc' hne x hx hx'
      simp only [ext, List.mem_map, List.mem_filter] at hx hx'
      obtain ⟨a, -, rfl⟩ := hx
      obtain ⟨a', -, h⟩ := hx'
      have := congrArg rev h
      rw [rev_push, rev_push] at this
      exact hne (rev_inj_level v hc hc' (List.cons.inj this).2.symm)

theorem Good.mem (_hv : Lawful v bound) {target : PublicKey} {l : List Auth} (h : Good v target l) :
    ∀ a ∈ l, ∃ pk, a ∈ v.auths pk := by
  match l, h with
  | [a], h => simpa using ⟨target, h⟩
  | a :: b :: l, h =>
    intro x hx
    rcases List.mem_cons.mp hx with rfl | hx
    · exact ⟨_, h.2.1⟩
    · exact Good.mem _hv h.1 x hx

theorem Good.nodup (hv : Lawful v bound) {target : PublicKey} {l : List Auth} (h : Good v target l) :
    l.Nodup := by
  match l, h with
  | [a], _ => simp
  | [a, b], h =>
    obtain ⟨-, ha, -, hn⟩ := h
    refine List.nodup_cons.mpr ⟨?_, by simp⟩
    intro hm
    have e : a = b := by simpa using hm
    subst e
    apply hn
    simp [hv.auth_for _ a ha]
  | a :: b :: b' :: l, h =>
    obtain ⟨hg, ha, -, hn⟩ := h
    refine List.nodup_cons.mpr ⟨?_, Good.nodup hv hg⟩
    intro hm
    rcases List.mem_cons.mp hm with rfl | hm
    · apply hn
      simp [hv.auth_for _ a ha]
    · -- the subject of `a` is the issuer of `b`, which is no subject of the rest
      obtain ⟨-, -, -, hn'⟩ := hg
      apply hn'
      rw [← hv.auth_for _ a ha]
      exact List.mem_map.mpr ⟨a, hm, rfl⟩

theorem Good.length_le (hv : Lawful v bound) {target : PublicKey} {l : List Auth} (h : Good v target l) :
    l.length ≤ bound := by
  obtain ⟨U, hU, hmem⟩ := hv.finite
  refine le_trans ?_ hU
  have hsub : l ⊆ U := fun a ha => by
    obtain ⟨pk, hpk⟩ := Good.mem hv h a ha
    exact hmem pk a hpk
  exact (List.Nodup.subperm (Good.nodup hv h) hsub).length_le

theorem level_bound_nil (hv : Lawful v bound) (target : PublicKey) : level v target bound = [] := by
  rw [List.eq_nil_iff_forall_not_mem]
  intro c hc
  obtain ⟨hl, hg, -, -⟩ := (mem_level_iff v target bound c).mp hc
  have := hg.length_le hv
  omega

theorem auths_length_le (hv : Lawful v bound) (pk : PublicKey) : (v.auths pk).length ≤ bound := by
  obtain ⟨U, hU, hmem⟩ := hv.finite
  exact le_trans ((List.Nodup.subperm (hv.nodup pk) (fun a ha => hmem pk a ha)).length_le) hU

theorem level_length_le (hv : Lawful v bound) (target : PublicKey) (k : Nat) :
    (level v target k).length ≤ bound ^ (k + 1) := by
  induction k with
  | zero => simpa [level] using auths_length_le hv target
  | succ k ih =>
    rw [level, List.length_flatMap]
    have key : ∀ L : List Chain, (L.map (fun c => (ext v c).length)).sum ≤ L.length * bound := by
      intro L
      induction L with
      | nil => simp
      | cons c L ihL =>
        rw [List.map_cons, List.sum_cons, List.length_cons, Nat.succ_mul]
        have : (ext v c).length ≤ bound := by
          unfold ext
          rw [List.length_map]
          exact le_trans (List.length_filter_le _ _) (auths_length_le hv _)
        omega
    calc _ ≤ (level v target k).length * bound := key _
      _ ≤ bound ^ (k + 1) * bound := Nat.mul_le_mul_right _ ih
      _ = bound ^ (k + 1 + 1) := by rw [← Nat.pow_succ]

theorem total_le (hv : Lawful v bound) (target : PublicKey) (m : Nat) (hm : m ≤ bound) :
    total v target m ≤ m * bound ^ bound := by
  induction m with
  | zero => simp [total]
  | succ m ih =>
    rw [total, Nat.succ_mul]
    have h1 := ih (by omega)
    have h2 := level_length_le hv target m
    have h3 : bound ^ (m + 1) ≤ bound ^ bound := Nat.pow_le_pow_right (by omega) hm
    omega

theorem fuel_enough (hv : Lawful v bound) (target : PublicKey) :
    ∃ f, (bound + 1) ^ (bound + 1) + 1 = total v target bound + f := by
  have h1 := total_le hv target bound le_rfl
  have h2 : bound * bound ^ bound ≤ (bound + 1) ^ (bound + 1) := by
    rw [Nat.pow_succ, Nat.mul_comm]
    exact Nat.mul_le_mul (Nat.pow_le_pow_left (by omega) _) (by omega)
  exact ⟨(bound + 1) ^ (bound + 1) + 1 - total v target bound, by omega⟩

/-- The paths found, in order. -/
def paths (v : View) (bound : Nat) (roots : List PublicKey) (target : PublicKey) : List (List Auth) :=
  (List.range bound).flatMap (fun k => done roots (level v target k))

theorem loop_result (hv : Lawful v bound) (roots : List PublicKey) (target : PublicKey) :
    loop v roots ((bound + 1) ^ (bound + 1) + 1) (level v target 0) [] =
      some (paths v bound roots target) := by
  obtain ⟨f, hf⟩ := fuel_enough hv target
  rw [hf, loop_levels, level_bound_nil hv]
  cases f <;> rfl

/-- The last pushed auth is a self-signed root auth, and it is not the only one. -/
def Terminated (roots : List PublicKey) : List Auth → Prop
  | a :: _ :: _ => a.issuedBy = a.trust.issuedFor ∧ a.issuedBy ∈ roots
  | _ => False

theorem isTerminated_iff (roots : List PublicKey) (c : Chain) :
    TrustGraph.isTerminated roots c = true ↔ Terminated roots (rev c) := by
  obtain ⟨l, hl⟩ := rev_eq_cons_last c
  have hlen : c.auths.length = l.length + 1 := by
    have : (rev c).length = c.auths.length := by simp [rev]
    rw [← this, hl]; rfl
  unfold TrustGraph.isTerminated
  rw [hl]
  cases l with
  | nil => simp [Terminated, hlen]
  | cons b l => simp [Terminated, hlen]

/-- Soundness and completeness of the search, at the level of auth lists. -/
theorem mem_paths_iff (hv : Lawful v bound) (roots : List PublicKey) (target : PublicKey) (l : List Auth) :
    l ∈ paths v bound roots target ↔ Good v target l.reverse ∧ Terminated roots l.reverse := by
  unfold paths done
  simp only [List.mem_flatMap, List.mem_range, List.mem_map, List.mem_filter]
  constructor
  · rintro ⟨k, -, c, ⟨hc, ht⟩, rfl⟩
    exact ⟨((mem_level_rev v target k _).mp ⟨c, hc, rfl⟩).2, (isTerminated_iff roots c).mp ht⟩
  · rintro ⟨hg, ht⟩
    have hlen := hg.length_le hv
    have hne : l.reverse.length ≠ 0 := by
      intro h0
      rw [List.length_eq_zero_iff.mp h0] at hg
      exact hg
    obtain ⟨c, hc, hr⟩ := (mem_level_rev v target (l.reverse.length - 1) l.reverse).mpr
      ⟨by omega, hg⟩
    refine ⟨l.reverse.length - 1, by omega, c, ⟨hc, ?_⟩, ?_⟩
    · rw [isTerminated_iff, hr]; exact ht
    · simpa [rev] using hr

theorem auths_inj_level {target : PublicKey} {k k' : Nat} {c c' : Chain} (h : c ∈ level v target k)
    (h' : c' ∈ level v target k') (e : c.auths = c'.auths) : c = c' :=
  rev_inj_level v h h' (by rw [rev, rev, e])

theorem auths_length_of_level {target : PublicKey} {k : Nat} {c : Chain} (h : c ∈ level v target k) :
    c.auths.length = k + 1 := by
  have := ((mem_level_iff v target k c).mp h).1
  simpa [rev] using this

theorem mem_done {roots : List PublicKey} {target : PublicKey} {k : Nat} {l : List Auth}
    (h : l ∈ done roots (level v target k)) : l.length = k + 1 := by
  simp only [done, List.mem_map, List.mem_filter] at h
  obtain ⟨c, ⟨hc, -⟩, rfl⟩ := h
  exact auths_length_of_level hc

theorem done_nodup (hv : Lawful v bound) (roots : List PublicKey) (target : PublicKey) (k : Nat) :
    (done roots (level v target k)).Nodup := by
  refine List.Nodup.map_on ?_ ((level_nodup hv target k).filter _)
  intro c hc c' hc' e
  exact auths_inj_level (List.mem_filter.mp hc).1 (List.mem_filter.mp hc').1 e

theorem paths_nodup (hv : Lawful v bound) (roots : List PublicKey) (target : PublicKey) :
    (paths v bound roots target).Nodup := by
  unfold paths
  rw [List.nodup_flatMap]
  refine ⟨fun k _ => done_nodup hv roots target k, ?_⟩
  refine List.Pairwise.imp ?_ List.nodup_range
  intro k k' hne l hl hl'
  have := mem_done hl
  have := mem_done hl'
  omega

theorem paths_sorted (roots : List PublicKey) (target : PublicKey) (n : Nat) :
    (paths v n roots target).Pairwise (fun a b => a.length ≤ b.length) := by
  unfold paths
  rw [List.flatMap, List.pairwise_flatten]
  refine ⟨?_, ?_⟩
  · intro l hl
    obtain ⟨k, -, rfl⟩ := List.mem_map.mp hl
    refine List.Pairwise.imp_of_mem (R := fun _ _ => True) ?_ (List.pairwise_of_forall (fun _ _ => trivial))
    intro a b ha hb _
    rw [mem_done ha, mem_done hb]
  · rw [List.pairwise_map]
    refine List.Pairwise.imp ?_ List.pairwise_lt_range
    intro k k' hlt a ha b hb
    rw [mem_done ha, mem_done hb]; omega

end TG.Search
