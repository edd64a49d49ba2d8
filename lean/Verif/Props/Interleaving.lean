/-
**C109** The Aqua functions may be used by many clients at the same time: each takes effect at once, when it returns.
-/
import Verif.Proofs.Interleaving

namespace TG
variable [Env]
open Spec

/-- Program `i` returned before program `j` made its first step. -/
def Precedes (tr : List Moment) (i j : Nat) : Prop := ∃ before after, tr = before ++ after ∧ i ∈ returned before ∧ ∀ m ∈ before, m.thread ≠ j

/-- **C109** at full strength: if functions have run at the same time and all have returned, there is an order in which they, executed one at a time with the same clock
readings and signatures, have the same results and the same effects; a function that returned before another began comes before it. -/
def C109_statement : Prop :=
  ∀ (net₀ net : Net Db) (fs : List AquaFn) (tr : List Moment) (qs : List (Prog AquaResult)),
    Interleaved net₀ (fs.map AquaFn.prog) tr net qs → (∀ i < fs.length, (resultOf qs i).isSome) →
    ∃ order : List Nat, order.Perm (List.range fs.length) ∧ (∀ i j, j < fs.length → Precedes tr i j → [i, j].Sublist order) ∧
      OneByOne (fs.map AquaFn.prog) (inputsOf tr) (resultOf qs) net₀ order net

/-- All functions but `add_root_trust`. -/
def AquaFn.Single : AquaFn → Prop
  | .addRootTrust .. => False
  | _ => True

section
omit [Env]

theorem AquaProg.timed_late {s : Site} {o : List (List Tetraplet)} {c : UInt64 → Call} (g : Res Payload → AquaResult) :
    ((AquaProg.timed s o c).bind fun r => .done (g r)).Late := fun _ => .inr fun _ => rfl

theorem AquaProg.issueTrust_free (relay : Site) (i p : Str) (e : UInt64) : (AquaProg.issueTrust relay i p e).Free := by
  refine fun t => ⟨id, fun b => ?_⟩
  show Prog.Free (if b.success then _ else _)
  split
  · refine fun r => ?_
    cases r with
    | none => trivial
    | some s =>
      refine ⟨id, fun r => ?_⟩
      show Prog.Free (if r.success then _ else _)
      split <;> trivial
  · trivial

theorem AquaProg.issueRevocation_free (relay : Site) (b p : Str) : (AquaProg.issueRevocation relay b p).Free := by
  refine fun t => ⟨id, fun b => ?_⟩
  show Prog.Free (if b.success then _ else _)
  split
  · refine fun r => ?_
    cases r with
    | none => trivial
    | some s =>
      refine ⟨id, fun r => ?_⟩
      show Prog.Free (if r.success then _ else _)
      split <;> trivial
  · trivial

theorem AquaFn.late {f : AquaFn} (h : f.Single) : f.prog.Late := by
  cases f with
  | addRootTrust => exact h.elim
  | setRoot => exact .inr fun _ => rfl
  | issueTrust r i p e => exact (AquaProg.issueTrust_free r i p e).bind fun _ => trivial
  | importTrust => exact fun _ => .inr fun _ => rfl
  | addTrust r s o0 o1 i p e =>
    refine Prog.Late.bind ((AquaProg.issueTrust_free r i p e).bind ?_) fun _ => rfl
    rintro ⟨_ | t, _ | x⟩
    · trivial
    · trivial
    · exact fun _ => .inr fun _ => rfl
    · trivial
  | issueRevocation r b p => exact (AquaProg.issueRevocation_free r b p).bind fun _ => trivial
  | importRevocation => exact fun _ => .inr fun _ => rfl
  | revoke r s o0 b p =>
    refine Prog.Late.bind ((AquaProg.issueRevocation_free r b p).bind ?_) fun _ => rfl
    rintro ⟨_ | t, _ | x⟩
    · trivial
    · trivial
    · exact fun _ => .inr fun _ => rfl
    · exact fun _ => .inr fun _ => rfl
  | _ => exact AquaProg.timed_late _

theorem AquaFn.not_done (f : AquaFn) : f.prog.result = none := by
  cases f <;> rfl

end

/-- **C109**, all but `add_root_trust`: whatever the order of steps, and for any storages on any number of nodes, the storages and the results of the functions that have
returned are those of executing these functions one at a time, each at the moment at which it returned.  The functions that have not returned have had no effect. -/
theorem C109_at_once_partial {S σ : Type} [Storage S σ] {net₀ net : Net S} {fs : List AquaFn} {tr : List Moment} {qs : List (Prog AquaResult)}
    (h : Interleaved net₀ (fs.map AquaFn.prog) tr net qs) (hs : ∀ f ∈ fs, f.Single) :
    OneByOne (fs.map AquaFn.prog) (inputsOf tr) (resultOf qs) net₀ (returned tr) net ∧ (returned tr).Nodup ∧
      ∀ i, i ∈ returned tr ↔ (resultOf qs i).isSome := by
  obtain ⟨h1, h2, h3, -⟩ := h.oneByOne
    (fun p hp => by obtain ⟨f, hf, rfl⟩ := List.mem_map.mp hp; exact AquaFn.late (hs f hf))
    (fun p hp => by obtain ⟨f, -, rfl⟩ := List.mem_map.mp hp; exact f.not_done)
  exact ⟨h1, h2, h3⟩

omit [Env] in
theorem returned_split (a b : List Moment) : returned (a ++ b) = returned a ++ returned b := by
  unfold returned
  rw [List.filter_append, List.map_append]

omit [Env] in
theorem mem_returned {tr : List Moment} {i : Nat} (h : i ∈ returned tr) : ∃ m ∈ tr, m.thread = i := by
  unfold returned at h
  obtain ⟨m, hm, rfl⟩ := List.mem_map.mp h
  exact ⟨m, List.mem_of_mem_filter hm, rfl⟩

/-- **C109** in the form of the full statement, for all functions but `add_root_trust`. -/
theorem C109_order_partial {net₀ net : Net Db} {fs : List AquaFn} {tr : List Moment} {qs : List (Prog AquaResult)}
    (h : Interleaved net₀ (fs.map AquaFn.prog) tr net qs) (hs : ∀ f ∈ fs, f.Single) (hd : ∀ i < fs.length, (resultOf qs i).isSome) :
    ∃ order : List Nat, order.Perm (List.range fs.length) ∧ (∀ i j, j < fs.length → Precedes tr i j → [i, j].Sublist order) ∧
      OneByOne (fs.map AquaFn.prog) (inputsOf tr) (resultOf qs) net₀ order net := by
  obtain ⟨h1, h2, h3, -, h5⟩ := h.oneByOne
    (fun p hp => by obtain ⟨f, hf, rfl⟩ := List.mem_map.mp hp; exact AquaFn.late (hs f hf))
    (fun p hp => by obtain ⟨f, -, rfl⟩ := List.mem_map.mp hp; exact f.not_done)
  refine ⟨returned tr, ?_, ?_, h1⟩
  · refine (List.perm_ext_iff_of_nodup h2 List.nodup_range).mpr fun i => ?_
    rw [h3, List.mem_range]
    refine ⟨fun hi => ?_, hd i⟩
    by_contra hge
    rw [List.length_map] at h5
    unfold resultOf at hi
    rw [List.getElem?_eq_none (by omega)] at hi
    cases hi
  · rintro i j hj ⟨before, after, rfl, hi, hb⟩
    have hj' : j ∈ returned (before ++ after) := (h3 j).mpr (hd j hj)
    rw [returned_split] at hj' ⊢
    rcases List.mem_append.mp hj' with hj' | hj'
    · obtain ⟨m, hm, e⟩ := mem_returned hj'
      exact absurd e (hb m hm)
    · exact (List.singleton_sublist.mpr hi).append (List.singleton_sublist.mpr hj')

end TG
