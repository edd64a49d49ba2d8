/-
C109 fails for `add_root_trust`, and concrete cases.
-/
import Verif.Props.Interleaving
import Verif.Props.AquaWitness
import Verif.Props.InterleavingSame
import Mathlib.Data.List.Permutation

namespace TG

section
variable [Env] {S σ : Type} [Storage S σ] {α : Type}

/-- The next step of a program, given the answer of a clock or a signer if it asks for one. -/
def Prog.next (net : Net S) : Prog α → Option Input → Option (List Input × Net S × Prog α)
  | .time _ k, some (.time t) => some ([.time t], net, k t)
  | .sign _ _ k, some (.sign r) => some ([.sign r], net, k r)
  | .call h cp c k, none =>
    match c.reply cp (net h) with
    | (.ok r, s) => some ([], net.put h s, k r)
    | _ => none
  | _, _ => none

theorem Prog.next_step {net net' : Net S} {p p' : Prog α} {x : Option Input} {l : List Input} (h : p.next net x = some (l, net', p')) : Step net p l net' p' := by
  unfold Prog.next at h
  split at h
  · cases h; exact .time _
  · cases h; exact .sign _
  · split at h
    · rename_i hc
      cases h
      exact .call hc
    · cases h
  · cases h

/-- A run that follows a schedule; impossible steps are left out. -/
def follow : List (Nat × Option Input) → List Moment × Net S × List (Prog α) → List Moment × Net S × List (Prog α)
  | [], x => x
  | (i, a) :: rest, (tr, net, qs) =>
    match qs[i]? with
    | none => follow rest (tr, net, qs)
    | some q =>
      match q.next net a with
      | none => follow rest (tr, net, qs)
      | some (l, net', q') => follow rest (tr ++ [⟨i, l, q'.result.isSome⟩], net', qs.set i q')

theorem follow_interleaved {net₀ : Net S} {ps : List (Prog α)} (sched : List (Nat × Option Input)) : ∀ x : List Moment × Net S × List (Prog α),
    Interleaved net₀ ps x.1 x.2.1 x.2.2 →
    Interleaved net₀ ps (follow sched x).1 (follow sched x).2.1 (follow sched x).2.2 := by
  induction sched with
  | nil => exact fun x h => h
  | cons a rest ih =>
    obtain ⟨i, a⟩ := a
    rintro ⟨tr, net, qs⟩ h
    unfold follow
    split
    · exact ih _ h
    · rename_i q hq
      split
      · exact ih _ h
      · rename_i l net' q' hn
        exact ih _ (h.step hq (Prog.next_step hn))

theorem follow_start (sched : List (Nat × Option Input)) (net₀ : Net S) (ps : List (Prog α)) :
    Interleaved net₀ ps (follow sched ([], net₀, ps)).1 (follow sched ([], net₀, ps)).2.1 (follow sched ([], net₀, ps)).2.2 :=
  follow_interleaved sched ([], net₀, ps) .start

/-- The results of programs executed one at a time. -/
def resultsOf (ps : List (Prog α)) (inputs : Nat → List Input) : Net S → List Nat → Option (List α)
  | _, [] => some []
  | net, i :: is =>
    match ps[i]? with
    | none => none
    | some p =>
      match p.atOnce net (inputs i) with
      | none => none
      | some (a, net') => (resultsOf ps inputs net' is).map (a :: ·)

theorem OneByOne.results {ps : List (Prog α)} {inputs : Nat → List Input} {results : Nat → Option α} {net net' : Net S} {is : List Nat}
    (h : OneByOne ps inputs results net is net') : ∃ l, resultsOf ps inputs net is = some l ∧ l.map some = is.map results := by
  induction h with
  | nil => exact ⟨[], rfl, rfl⟩
  | cons hp he hr _ ih =>
    obtain ⟨l, hl, hm⟩ := ih
    refine ⟨_ :: l, ?_, by rw [List.map_cons, List.map_cons, hm, hr]⟩
    unfold resultsOf
    simp only [hp, he, hl, Option.map_some]

end

namespace InterleavingDemo
open TG.Toy TG.Service TG.ServiceDemo

/-- The service of key 1 on node 50, used by key 1. -/
def site : Site := ⟨peer 50, peer 1, peer 1⟩

/-- Another node. -/
def other : Site := ⟨peer 51, peer 1, peer 9⟩

/-- Every node starts with root 1, which trusts key 2, which trusts key 3. -/
def net : Net Db := fun _ => (Op.addTrust (trust 2 3 1000 1) (pk 2) (s 1)).run db

/-- What key pair `n` signs. -/
def signs (n : Nat) (b : Bytes) : Option Input := some (.sign (AquaDemo.sign n b))

/-- Key 2 becomes a root while somebody asks for its weight, and then for the certificates of key 3. -/
def fs : List AquaFn := [.addRootTrust other site [literal] [literal] [] (peer 2) 12 1000, .getWeight site [literal] (peer 2), .getAllCerts site [literal] (peer 3)]

/-- The bytes that the trust of key 2 in itself is signed over. -/
def bytes : Bytes := Trust.signatureBytes (pk 2) (s 1000) (s 10)

/-- The order of steps: the questions come between the two changes of `add_root_trust`. -/
def sched : List (Nat × Option Input) :=
  [(0, some (.time 10)), (0, none), (0, signs 2 bytes), (0, none), (0, none), (1, some (.time 10)), (1, none), (2, some (.time 10)), (2, none), (0, some (.time 10)),
   (0, none)]

/-- The run. -/
def run : List Moment × Net Db × List (Prog AquaResult) := follow sched ([], net, fs.map AquaFn.prog)

theorem interleaved : Interleaved net (fs.map AquaFn.prog) run.1 run.2.1 run.2.2 := by
  unfold run
  exact follow_start _ _ _

/-- The orders in which the questions come one after the other. -/
def orders : List (List Nat) := [[0, 1, 2], [1, 0, 2], [1, 2, 0]]

/-- The weight is that of the new root, the certificates are the old ones; one at a time this does not happen. -/
def answers : List (Option AquaResult) → Option (Option AquaError × Nat × Nat)
  | [some (.error e), some (.record ⟨true, none, .weight w _⟩), some (.record ⟨true, none, .certs cs⟩)] => some (e, w, cs.length)
  | _ => none

set_option maxRecDepth 100000 in
theorem facts : (run.1.map fun m => (m.thread, m.last)) =
      [(0, false), (0, false), (0, false), (0, false), (0, false), (1, false), (1, true), (2, false), (2, true), (0, false), (0, true)] ∧
    answers ([0, 1, 2].map (resultOf run.2.2)) = some (none, 4096, 1) ∧
    ∀ o ∈ orders, (resultsOf (fs.map AquaFn.prog) (inputsOf run.1) net o).map (·.map some) ≠ some (o.map (resultOf run.2.2)) := by decide +kernel

theorem shape : run.1.map (·.thread) = [0, 0, 0, 0, 0, 1, 1, 2, 2, 0, 0] ∧ run.1.map (·.last) =
    [false, false, false, false, false, false, true, false, true, false, true] := by
  have h := facts.1
  have h1 := congrArg (List.map Prod.fst) h
  have h2 := congrArg (List.map Prod.snd) h
  rw [List.map_map] at h1 h2
  exact ⟨h1, h2⟩

/-- The weight was told before the certificates were asked for. -/
theorem weight_first : Precedes run.1 1 2 := by
  refine ⟨run.1.take 7, run.1.drop 7, (List.take_append_drop 7 run.1).symm, ?_, fun m hm e => ?_⟩
  · have h : (run.1.map fun m => (m.thread, m.last)).take 7 = [(0, false), (0, false), (0, false), (0, false), (0, false), (1, false), (1, true)] := by
      rw [facts.1]; rfl
    rw [← List.map_take] at h
    obtain ⟨m, hm, e⟩ := List.mem_map.mp (h ▸ (by simp : ((1, true) : Nat × Bool) ∈ [(0, false), (0, false), (0, false), (0, false), (0, false), (1, false), (1, true)]))
    obtain ⟨e1, e2⟩ := Prod.mk.inj e
    exact List.mem_map.mpr ⟨m, List.mem_filter.mpr ⟨hm, e2⟩, e1⟩
  · have h : (run.1.map (·.thread)).take 7 = [0, 0, 0, 0, 0, 1, 1] := by rw [shape.1]; rfl
    rw [← List.map_take] at h
    have := List.mem_map_of_mem (f := (·.thread)) hm
    rw [h, e] at this
    simp at this

/-- **C109 fails** (F31): between the two changes of `add_root_trust` others see a root whose certificates are missing. -/
theorem C109_fails : ¬ C109_statement := by
  intro h
  have hall : ∀ i < 3, (resultOf run.2.2 i).isSome := by
    have h1 := facts.2.1
    intro i hi
    cases hr : resultOf run.2.2 i with
    | some a => rfl
    | none =>
      exfalso
      have : i = 0 ∨ i = 1 ∨ i = 2 := by omega
      rcases this with rfl | rfl | rfl
      all_goals
        simp only [List.map_cons, List.map_nil, hr] at h1
        unfold answers at h1
        split at h1
        · simp_all
        · cases h1
  obtain ⟨order, hp, ho, h1⟩ := h net run.2.1 fs run.1 run.2.2 interleaved hall
  have hsub := ho 1 2 (by decide) weight_first
  have hmem : order ∈ orders := by
    have key : ∀ o ∈ (List.range 3).permutations', [1, 2].Sublist o → o ∈ orders := by decide
    exact key order (List.mem_permutations'.mpr hp) hsub
  obtain ⟨l, hl, hm⟩ := h1.results
  refine facts.2.2 order hmem ?_
  rw [hl, Option.map_some, hm]

/-! ### A concrete case for the theorems: key 2 trusts key 4, key 1 revokes key 2, and the host is asked about key 4, all at the same time -/

/-- The functions. -/
def gs : List AquaFn := [.addTrust other site [literal] [literal] (peer 2) (peer 4) 1000, .revoke other site [literal] (peer 1) (peer 2),
  .getWeight site [literal] (peer 4), .addTrust site other [literal] [literal] (peer 1) (peer 5) 1000]

/-- The trust is stored before the revocation; the question comes after it; the last function does not get to its end. -/
def plan : List (Nat × Option Input) :=
  [(0, some (.time 10)), (1, some (.time 10)), (3, some (.time 11)), (0, none), (1, none), (2, some (.time 12)), (1, signs 1 (Revocation.signatureBytes (pk 2) (s 10))),
   (0, signs 2 (Trust.signatureBytes (pk 4) (s 1000) (s 10))), (1, none), (0, none), (1, some (.time 12)), (0, some (.time 11)), (0, none), (3, none), (1, none), (2, none)]

/-- The run. -/
def course : List Moment × Net Db × List (Prog AquaResult) := follow plan ([], net, gs.map AquaFn.prog)

theorem course_interleaved : Interleaved net (gs.map AquaFn.prog) course.1 course.2.1 course.2.2 := by
  unfold course
  exact follow_start _ _ _

set_option maxRecDepth 100000 in
/-- C109: three functions have returned, in this order and with these results; key 4 was trusted by key 2 for a moment, and has no weight any more. -/
theorem course_facts : course.1.length = 16 ∧ returned course.1 = [0, 1, 2] ∧ resultOf course.2.2 0 = some (.error none) ∧ resultOf course.2.2 1 = some (.error none) ∧
    resultOf course.2.2 2 = some (.record ⟨true, none, .weight 0 (peer 4)⟩) ∧ resultOf course.2.2 3 = none ∧
    (course.2.1 (peer 50)).relations.length = 4 ∧ (course.2.1 (peer 51)).relations.length = 3 := by decide +kernel

example : Interleaved net (gs.map AquaFn.prog) course.1 course.2.1 course.2.2 ∧ (∀ f ∈ gs, f.Single) ∧ returned course.1 = [0, 1, 2] :=
  ⟨course_interleaved, by simp [gs, AquaFn.Single], course_facts.2.1⟩

/-- C109, in the form of the full statement: two functions, both at an end. -/
def pair : List Moment × Net Db × List (Prog AquaResult) :=
  follow [(0, some (.time 10)), (1, some (.time 11)), (1, none), (0, none)] ([], net, [AquaFn.getWeight site [literal] (peer 2), .getHostCerts site].map AquaFn.prog)

set_option maxRecDepth 100000 in
theorem pair_facts : ∀ i < 2, (resultOf pair.2.2 i).isSome := by decide +kernel

example : Interleaved net ([AquaFn.getWeight site [literal] (peer 2), .getHostCerts site].map AquaFn.prog) pair.1 pair.2.1 pair.2.2 ∧
    ∀ i < 2, (resultOf pair.2.2 i).isSome := ⟨by unfold pair; exact follow_start _ _ _, pair_facts⟩

set_option maxRecDepth 100000 in
/-- C109, sameness: `add_trust`, `revoke` and `add_root_trust` without interruptions do return. -/
example : ((AquaFn.addTrust other site [literal] [literal] (peer 2) (peer 4) 1000).plain 10 (AquaDemo.sign 2 (Trust.signatureBytes (pk 4) (s 1000) (s 10))) 11
      (net (peer 51)) (net (peer 50))).1 = .ok (.error none) ∧
    ((AquaFn.revoke other site [literal] (peer 1) (peer 2)).plain 10 none 11 (net (peer 51)) (net (peer 50))).1 = .ok (.error (some .sig)) ∧
    ((AquaFn.addRootTrust other site [literal] [literal] [] (peer 2) 12 1000).plain 10 (AquaDemo.sign 2 bytes) 10 (net (peer 51)) (net (peer 50))).1 = .ok (.error none) := by
  decide +kernel

end InterleavingDemo
end TG
