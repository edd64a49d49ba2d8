/-
Programs whose last step alone touches a graph.
-/
import Verif.Spec.Interleaving
import Verif.Proofs.ServiceMachine

namespace TG
variable [Env]
open Spec
variable {S σ : Type} [Storage S σ] {α β : Type}

/-- A call that does not need the graph has the same answer whatever the storage, and leaves it. -/
theorem Call.reply_free {cp : CallParams} {c : Call} (h : ¬ NeedsGraph cp c) : ∃ r, ∀ s : S, c.reply cp s = (.ok r, s) := by
  rcases Call.fate (S := S) cp c with ⟨op, ha, hm, -⟩ | ⟨p, ha, hp, h'⟩ | ⟨e, ho, h'⟩ | ⟨text, t, rfl, ht, h'⟩
  · exfalso
    cases hm with
    | setRoot => exact h (ha.1 _ _ rfl)
    | _ => exact h trivial
  · exact ⟨_, h'⟩
  · exact ⟨_, h'⟩
  · exact absurd trivial h

/-- A program that uses a graph, if at all, in its last step. -/
def Prog.Late : Prog α → Prop
  | .done _ => True
  | .wait => True
  | .time _ k => ∀ t, (k t).Late
  | .sign _ _ k => ∀ r, (k r).Late
  | .call _ cp c k => (¬ NeedsGraph cp c ∧ ∀ r, (k r).Late) ∨ ∀ r, (k r).result.isSome

/-- A program that uses no graph. -/
def Prog.Free : Prog α → Prop
  | .done _ => True
  | .wait => True
  | .time _ k => ∀ t, (k t).Free
  | .sign _ _ k => ∀ r, (k r).Free
  | .call _ cp c k => ¬ NeedsGraph cp c ∧ ∀ r, (k r).Free

omit [Env] in
theorem Prog.Free.bind {p : Prog α} {f : α → Prog β} (hp : p.Free) (hf : ∀ a, (f a).Late) : (p.bind f).Late := by
  induction p with
  | done a => exact hf a
  | wait => trivial
  | time h k ih => exact fun t => ih t (hp t)
  | sign s b k ih => exact fun t => ih t (hp t)
  | call h cp c k ih => exact .inl ⟨hp.1, fun r => ih r (hp.2 r)⟩

omit [Env] in
theorem Prog.Late.bind {p : Prog α} {f : α → Prog β} (hp : p.Late) (hf : ∀ a, (f a).result.isSome) : (p.bind f).Late := by
  induction p with
  | done a =>
    have := hf a
    show (f a).Late
    cases h : f a <;> rw [h] at this <;> trivial
  | wait => trivial
  | time h k ih => exact fun t => ih t (hp t)
  | sign s b k ih => exact fun t => ih t (hp t)
  | call h cp c k ih =>
    rcases hp with hp | hp
    · exact .inl ⟨hp.1, fun r => ih r (hp.2 r)⟩
    · refine .inr fun r => ?_
      have := hp r
      cases h : k r with
      | done a => show ((k r).bind f).result.isSome; rw [h]; exact hf a
      | _ => rw [h] at this; cases this

omit [Env] in
theorem Net.put_self (net : Net S) (h : Str) : net.put h (net h) = net := by
  funext h'
  unfold Net.put
  split
  · rename_i e; rw [e]
  · rfl

/-- The program `p`, with the inputs `l` and without using any graph, has come to `q`. -/
def Prog.Leads (S : Type) {σ : Type} [Storage S σ] (p : Prog α) (l : List Input) (q : Prog α) : Prop :=
  ∀ (net : Net S) l', p.atOnce net (l ++ l') = q.atOnce net l'

theorem Prog.Leads.trans {p q r : Prog α} {l l' : List Input} (h : p.Leads S l q) (h' : q.Leads S l' r) : p.Leads S (l ++ l') r := by
  intro net m
  rw [List.append_assoc, h, h']

theorem Prog.atOnce_call {net : Net S} {h : Str} {cp : CallParams} {c : Call} {k : Res Payload → Prog α} {l : List Input} {r : Res Payload} {s : S}
    (hc : c.reply cp (net h) = (.ok r, s)) : (Prog.call h cp c k).atOnce net l = (k r).atOnce (net.put h s) l := by
  rw [Prog.atOnce, hc]

/-- A step of such a program: it stays so and leaves the graphs, or it returns; in any case the program executed at once does the same. -/
theorem Prog.Step.late {net net' : Net S} {q q' : Prog α} {l : List Input} (h : Step net q l net' q') (hl : q.Late) :
    (q'.Late ∧ q.Leads S l q' ∧ net' = net) ∨ ∃ a, q' = .done a ∧ q.atOnce net l = some (a, net') := by
  cases h with
  | time t => exact .inl ⟨hl t, fun _ _ => rfl, rfl⟩
  | sign r => exact .inl ⟨hl r, fun _ _ => rfl, rfl⟩
  | @call h cp c k r s hc =>
    rcases hl with ⟨hn, hk⟩ | hk
    · obtain ⟨r', hr⟩ := Call.reply_free (S := S) hn
      rw [hr] at hc
      cases hc
      refine .inl ⟨hk r, fun net' l' => ?_, Net.put_self net h⟩
      rw [Prog.atOnce_call (hr _), Net.put_self]; rfl
    · have := hk r
      cases h' : k r with
      | done a =>
        refine .inr ⟨a, rfl, ?_⟩
        rw [Prog.atOnce_call hc, h']; rfl
      | _ => rw [h'] at this; cases this

omit [Env] in
theorem inputsOf_append (tr : List Moment) (m : Moment) (i : Nat) :
    inputsOf (tr ++ [m]) i = inputsOf tr i ++ if m.thread = i then m.inputs else [] := by
  unfold inputsOf
  rw [List.filter_append, List.flatMap_append]
  by_cases h : m.thread = i <;> simp [h]

omit [Env] in
theorem returned_append (tr : List Moment) (m : Moment) : returned (tr ++ [m]) = returned tr ++ if m.last then [m.thread] else [] := by
  unfold returned
  rw [List.filter_append, List.map_append]
  by_cases h : m.last <;> simp [h]

/-- The claims about a program in a run. -/
def Progress (S : Type) {σ : Type} [Storage S σ] (p q : Prog α) (l : List Input) : Prop :=
  q.result = none → q.Late ∧ p.Leads S l q

theorem OneByOne.append {ps : List (Prog α)} {inputs : Nat → List Input} {results : Nat → Option α} {net net' net'' : Net S} {is js : List Nat}
    (h : OneByOne ps inputs results net is net') (h' : OneByOne ps inputs results net' js net'') : OneByOne ps inputs results net (is ++ js) net'' := by
  induction h with
  | nil => exact h'
  | cons hp he hr _ ih => exact .cons hp he hr (ih h')

theorem OneByOne.congr {ps : List (Prog α)} {inputs inputs' : Nat → List Input} {results results' : Nat → Option α} {net net' : Net S} {is : List Nat}
    (h : OneByOne ps inputs results net is net') (hi : ∀ i ∈ is, inputs' i = inputs i) (hr : ∀ i ∈ is, results' i = results i) :
    OneByOne ps inputs' results' net is net' := by
  induction h with
  | nil => exact .nil
  | cons hp he hres _ ih =>
    exact .cons hp (by rw [hi _ (.head _)]; exact he) (by rw [hr _ (.head _)]; exact hres)
      (ih (fun i h => hi i (.tail _ h)) (fun i h => hr i (.tail _ h)))

theorem Prog.Step.open {net net' : Net S} {q q' : Prog α} {l : List Input} (h : Step net q l net' q') : q.result = none := by
  cases h <;> rfl

/-- Programs that use graphs in their last steps only: as if each had been executed at once when it returned. -/
theorem Interleaved.oneByOne {net₀ net : Net S} {ps qs : List (Prog α)} {tr : List Moment} (h : Interleaved net₀ ps tr net qs)
    (hl : ∀ p ∈ ps, p.Late) (ho : ∀ p ∈ ps, p.result = none) :
    OneByOne ps (inputsOf tr) (resultOf qs) net₀ (returned tr) net ∧ (returned tr).Nodup ∧
      (∀ i, i ∈ returned tr ↔ (resultOf qs i).isSome) ∧
      (∀ (i : Nat) p q, ps[i]? = some p → qs[i]? = some q → Progress S p q (inputsOf tr i)) ∧ qs.length = ps.length := by
  induction h with
  | start =>
    refine ⟨.nil, List.nodup_nil, fun i => ?_, fun i p q hp hq hr => ?_, rfl⟩
    · constructor
      · intro h; cases h
      · unfold resultOf
        cases hi : ps[i]? with
        | none => intro h; cases h
        | some p => intro h; rw [Option.bind_some, ho p (List.mem_of_getElem? hi)] at h; cases h
    · rw [hp] at hq
      cases hq
      exact ⟨hl p (List.mem_of_getElem? hp), fun _ _ => rfl⟩
  | @step tr net qs i q inputs net' q' _ hq hs ih =>
    obtain ⟨h1, h2, h3, h4, h5⟩ := ih
    have hlt : i < qs.length := by
      by_contra hge
      rw [List.getElem?_eq_none (by omega)] at hq
      cases hq
    have hget : ∀ j, (qs.set i q')[j]? = if j = i then some q' else qs[j]? := by
      intro j
      by_cases hj : j = i
      · subst hj; rw [List.getElem?_set_self hlt, if_pos rfl]
      · rw [List.getElem?_set_ne (Ne.symm hj), if_neg hj]
    have hres : ∀ j, resultOf (qs.set i q') j = if j = i then q'.result else resultOf qs j := by
      intro j
      unfold resultOf
      rw [hget]
      split <;> rfl
    have hi : i ∉ returned tr := by
      rw [h3]
      unfold resultOf
      rw [hq, Option.bind_some, hs.open]
      intro h; cases h
    obtain ⟨p, hp⟩ : ∃ p, ps[i]? = some p := ⟨_, List.getElem?_eq_getElem (h5 ▸ hlt)⟩
    obtain ⟨hlate, hlead⟩ := h4 i p q hp hq hs.open
    have hin : ∀ j, inputsOf (tr ++ [⟨i, inputs, q'.result.isSome⟩]) j = inputsOf tr j ++ if i = j then inputs else [] := fun j => inputsOf_append _ _ _
    have hold : OneByOne ps (inputsOf (tr ++ [⟨i, inputs, q'.result.isSome⟩])) (resultOf (qs.set i q')) net₀ (returned tr) net := by
      refine h1.congr (fun j hj => ?_) (fun j hj => ?_)
      · rw [hin, if_neg (fun e : i = j => hi (e ▸ hj)), List.append_nil]
      · rw [hres, if_neg (fun e : j = i => hi (e ▸ hj))]
    have hprog : Progress S p q' (inputsOf tr i ++ inputs) ∧
        ∀ a, q' = .done a → p.atOnce net (inputsOf tr i ++ inputs) = some (a, net') := by
      rcases hs.late hlate with ⟨hl', hled, hnet⟩ | ⟨a, rfl, hat⟩
      · refine ⟨fun _ => ⟨hl', hlead.trans hled⟩, fun a ha => ?_⟩
        subst ha hnet
        rw [hlead, ← List.append_nil inputs, hled]
        rfl
      · refine ⟨fun h => (by cases h), fun b hb => ?_⟩
        cases hb
        rw [hlead, hat]
    have hnet : q'.result = none → net' = net := by
      intro hn
      rcases hs.late hlate with ⟨-, -, h⟩ | ⟨a, rfl, -⟩
      · exact h
      · cases hn
    refine ⟨?_, ?_, fun j => ?_, fun j p' q'' hp' hq'' => ?_, by rw [List.length_set, h5]⟩
    · rw [returned_append]
      cases hr : q'.result with
      | none =>
        simp only [Option.isSome_none, Bool.false_eq_true, if_false, List.append_nil]
        rw [hr] at hold
        rw [hnet hr]
        exact hold
      | some a =>
        have hd : q' = .done a := by cases q' <;> cases hr; rfl
        simp only [Option.isSome_some, if_true]
        rw [hr] at hold hin
        refine hold.append (.cons (a := a) hp ?_ ?_ .nil)
        · rw [hin, if_pos rfl]
          exact hprog.2 a hd
        · rw [hres, if_pos rfl, hr]
    · rw [returned_append]
      split
      · exact List.nodup_append.mpr ⟨h2, List.nodup_singleton _, fun a ha b hb => by
          rw [List.mem_singleton] at hb; rintro rfl; subst hb; exact hi ha⟩
      · rw [List.append_nil]; exact h2
    · rw [returned_append, hres, List.mem_append, h3]
      by_cases hj : j = i
      · subst hj
        rw [if_pos rfl]
        rw [h3] at hi
        cases hr : q'.result with
        | none => simp [hi]
        | some a => simp
      · rw [if_neg hj]
        constructor
        · rintro (h | h)
          · exact h
          · split at h
            · exact absurd (List.mem_singleton.mp h) hj
            · exact (List.not_mem_nil h).elim
        · exact .inl
    · rw [hget] at hq''
      rw [hin]
      by_cases hj : j = i
      · subst hj
        rw [if_pos rfl] at hq'' ⊢
        cases hq''
        rw [hp] at hp'
        cases hp'
        exact hprog.1
      · rw [if_neg hj] at hq''
        rw [if_neg (Ne.symm hj), List.append_nil]
        exact h4 j p' q'' hp' hq''

end TG
