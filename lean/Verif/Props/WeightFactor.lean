/-
Property C111: the weight factor of certificates handed over by the caller (`certificates_weight_factor`).
-/
import Verif.Props.Weights

namespace TG
variable [Env]

/-- Why a certificate has no worth: it is empty, or the key of its first trust is not a registered root. -/
def Spec.flaw (db : Db) (c : Certificate) : Option TrustGraphError :=
  match c.chain with
  | [] => some (.certificateCheckError .certificateLengthError)
  | first :: _ => if (db.rootFactor first.issuedFor).isSome then none else some .noRoot

/-- What `certificates_weight_factor` has to answer for these certificates.  The lengths are such that they fit `u32`. -/
inductive Spec.FactorAnswer (db : Db) (cs : List Certificate) : Outcome TrustGraphError (Option Nat) → Prop where
  /-- No certificates: no factor. -/
  | nothing (h : cs = []) : FactorAnswer db cs (.ok none)
  /-- All have a worth: the factor that stands for the greatest. -/
  | best (f : Nat) (h : ∀ c ∈ cs, flaw db c = none)
      (least : IsLeast {x | ∃ c ∈ cs, ∃ first rest m, c.chain = first :: rest ∧ db.rootFactor first.issuedFor = some m ∧
        x = m + rest.length} f)
      (worth : IsGreatest {x | ∃ c ∈ cs, x = db.certWeight c} (2 ^ (16 - f))) : FactorAnswer db cs (.ok (some f))
  /-- The first that has none is the reason for the refusal. -/
  | refused (before after : List Certificate) (c : Certificate) (e : TrustGraphError) (h : cs = before ++ c :: after)
      (fine : ∀ b ∈ before, flaw db b = none) (bad : flaw db c = some e) : FactorAnswer db cs (.err e)

namespace Db
variable {db : Db}

theorem weighable_of_flaw {c : Certificate} (h : Spec.flaw db c = none) (hs : c.chain.length + 16 < 2 ^ 32) : Weighable db c := by
  unfold Spec.flaw at h
  rcases hc : c.chain with _ | ⟨t, ts⟩
  · rw [hc] at h; cases h
  · rw [hc] at h
    dsimp only at h
    refine ⟨by simp [hc], fun t' ht' => ?_, hs⟩
    rw [hc] at ht'
    cases ht'
    by_contra hn
    rw [if_neg hn] at h
    cases h

theorem flaw_of_weighable {c : Certificate} (h : Weighable db c) : Spec.flaw db c = none := by
  unfold Spec.flaw
  rcases hc : c.chain with _ | ⟨t, ts⟩
  · exact absurd hc h.ne
  · exact if_pos (h.root t (by rw [hc]; rfl))

theorem weightFactorLoop_append (hh : db.Healthy) (hf : db.NoFaults) (before after : List Certificate)
    (h : ∀ c ∈ before, Weighable db c) (wf : Nat) :
    ∃ wf', TrustGraph.weightFactorLoop (before ++ after) wf db = TrustGraph.weightFactorLoop after wf' db := by
  induction before generalizing wf with
  | nil => exact ⟨wf, rfl⟩
  | cons c cs ih =>
    have hc := h c (by simp)
    have ih := fun wf => ih (fun x hx => h x (List.mem_cons_of_mem _ hx)) wf
    rw [List.cons_append]
    unfold TrustGraph.weightFactorLoop
    rcases hch : c.chain with _ | ⟨t, ts⟩
    · exact absurd hch hc.ne
    · obtain ⟨f, hfac⟩ := Option.isSome_iff_exists.mp (hc.root t (by rw [hch]; rfl))
      have hs := hc.short
      rw [hch] at hs
      dsimp only
      have h1 : TrustGraph.storage (Storage.getRootWeightFactor t.issuedFor) db
          = (.ok (db.rootFactor t.issuedFor), db) := Search.storage_ok (getRootWeightFactor_eq hh hf _)
      rw [M.bind_run_ok h1, hfac, Outcome.ofOption_some, M.bind_run_ok (M.lift_run _ _),
        chainFactor_eq (hh.rootFactor_le hfac) (by simp) hs, M.bind_run_ok (M.lift_run _ _)]
      obtain ⟨wf', h'⟩ := ih (min wf (f + ((t :: ts).length - 1)))
      refine ⟨wf', ?_⟩
      rw [h']
      cases after <;> rfl

theorem weightFactorLoop_flaw (hh : db.Healthy) (hf : db.NoFaults) {c : Certificate} {e : TrustGraphError} (hc : Spec.flaw db c = some e)
    (after : List Certificate) (wf : Nat) : TrustGraph.weightFactorLoop (c :: after) wf db = (.err e, db) := by
  unfold Spec.flaw at hc
  unfold TrustGraph.weightFactorLoop
  rcases hch : c.chain with _ | ⟨t, ts⟩
  · rw [hch] at hc
    cases hc
    rfl
  · rw [hch] at hc
    dsimp only at hc ⊢
    have h1 : TrustGraph.storage (Storage.getRootWeightFactor t.issuedFor) db
        = (.ok (db.rootFactor t.issuedFor), db) := Search.storage_ok (getRootWeightFactor_eq hh hf _)
    rw [M.bind_run_ok h1]
    rcases hr : db.rootFactor t.issuedFor with _ | f
    · rw [hr] at hc
      cases hc
      rfl
    · rw [hr] at hc
      cases hc

theorem certificatesWeightFactor_answer (hh : db.Healthy) (hf : db.NoFaults) (cs : List Certificate)
    (hs : ∀ c ∈ cs, c.chain.length + 16 < 2 ^ 32) :
    Spec.FactorAnswer db cs (TrustGraph.certificatesWeightFactor cs db).1 := by
  rcases cs with _ | ⟨c0, cs⟩
  · exact .nothing rfl
  generalize hl : c0 :: cs = l at *
  have hcalc : TrustGraph.certificatesWeightFactor l db
      = (TrustGraph.weightFactorLoop l (2 ^ 32 - 1) >>= fun wf => pure (some wf)) db := by subst hl; rfl
  by_cases hall : ∀ c ∈ l, Spec.flaw db c = none
  · have hw : ∀ c ∈ l, Weighable db c := fun c hc => weighable_of_flaw (hall c hc) (hs c hc)
    rw [hcalc, M.bind_run_ok (weightFactorLoop_eq hh hf l hw _)]
    have hlow := foldl_min_le db.factorOf l (2 ^ 32 - 1)
    have hatt := foldl_min_attained db.factorOf l (2 ^ 32 - 1)
    change Spec.FactorAnswer db l (.ok (some (l.foldl (fun w c => min w (db.factorOf c)) (2 ^ 32 - 1))))
    generalize l.foldl (fun w c => min w (db.factorOf c)) (2 ^ 32 - 1) = f at *
    have hfac : ∀ c ∈ l, ∃ first rest m, c.chain = first :: rest ∧ db.rootFactor first.issuedFor = some m ∧
        db.factorOf c = m + rest.length := by
      intro c hc
      have := hw c hc
      rcases hch : c.chain with _ | ⟨t, ts⟩
      · exact absurd hch this.ne
      · obtain ⟨m, hm⟩ := Option.isSome_iff_exists.mp (this.root t (by rw [hch]; rfl))
        exact ⟨t, ts, m, rfl, hm, by unfold factorOf; rw [hch]; simp [hm]⟩
    obtain ⟨c, hc, rfl⟩ : ∃ c ∈ l, f = db.factorOf c := by
      rcases hatt with h | h
      · have h0 : c0 ∈ l := by rw [← hl]; simp
        refine ⟨c0, h0, ?_⟩
        have h1 := hlow.2 c0 h0
        obtain ⟨first, rest, m, hch, hm, e⟩ := hfac c0 h0
        have h2 := hs c0 h0
        have h3 := hh.rootFactor_le hm
        rw [hch, List.length_cons] at h2
        omega
      · exact h
    refine .best _ hall ⟨?_, ?_⟩ ⟨⟨c, hc, ?_⟩, ?_⟩
    · obtain ⟨first, rest, m, hch, hm, e⟩ := hfac c hc
      exact ⟨c, hc, first, rest, m, hch, hm, e⟩
    · rintro x ⟨c', hc', first, rest, m, hch, hm, rfl⟩
      obtain ⟨first', rest', m', hch', hm', e⟩ := hfac c' hc'
      rw [hch] at hch'
      cases hch'
      rw [hm] at hm'
      cases hm'
      rw [← e]
      exact hlow.2 c' hc'
    · exact (hw c hc).certWeight_eq.symm
    · rintro x ⟨c', hc', rfl⟩
      rw [(hw c' hc').certWeight_eq]
      have := hlow.2 c' hc'
      exact Nat.pow_le_pow_right (by omega) (by unfold maxWeightFactor; omega)
  · obtain ⟨before, c, after, rfl, fine, bad⟩ : ∃ before c after, l = before ++ c :: after ∧
        (∀ b ∈ before, Spec.flaw db b = none) ∧ ¬ Spec.flaw db c = none := by
      clear hcalc hl hs
      induction l with
      | nil => exact absurd (fun _ h => by cases h) hall
      | cons a l ih =>
        by_cases ha : Spec.flaw db a = none
        · obtain ⟨before, c, after, rfl, fine, bad⟩ := ih fun h => hall fun c hc => by
            rcases List.mem_cons.mp hc with rfl | hc
            · exact ha
            · exact h c hc
          refine ⟨a :: before, c, after, rfl, fun b hb => ?_, bad⟩
          rcases List.mem_cons.mp hb with rfl | hb
          · exact ha
          · exact fine b hb
        · exact ⟨[], a, l, rfl, (fun _ h => by cases h), ha⟩
    obtain ⟨e, he⟩ := Option.ne_none_iff_exists'.mp bad
    obtain ⟨wf', hwf⟩ := weightFactorLoop_append hh hf before (c :: after)
      (fun b hb => weighable_of_flaw (fine b hb) (hs b (by simp [hb]))) (2 ^ 32 - 1)
    rw [weightFactorLoop_flaw hh hf he] at hwf
    have : TrustGraph.certificatesWeightFactor (before ++ c :: after) db = (.err e, db) := by
      rw [hcalc, M.bind_run_err hwf]
    rw [this]
    exact .refused before after c e rfl fine he

end Db

open Classical in
/-- **C111** at full strength, as documented at the function: certificates on which a key has been revoked by an earlier one do
not count.  Refuted by `C111_fails`. -/
def C111_statement : Prop :=
  ∀ (db : Db), Reachable db → db.NoFaults → ∀ (now : Dur) (cs : List Certificate), (∀ c ∈ cs, c.chain.length + 16 < 2 ^ 32) →
    Spec.FactorAnswer db (cs.filter fun c => Spec.Unrevoked (db.snapshot now) c.chain) (TrustGraph.certificatesWeightFactor cs db).1

/-- **C111**, what holds: whatever certificates are handed over, and whatever SQL statements fail, the call either reports the
failure or answers as it has to; it changes nothing.  Missing: that revocations are taken into account. -/
theorem C111_factor_partial {db : Db} (hh : db.Healthy) (cs : List Certificate) (hs : ∀ c ∈ cs, c.chain.length + 16 < 2 ^ 32) :
    ((TrustGraph.certificatesWeightFactor cs db).1 = .err .internalStorageError ∨
      Spec.FactorAnswer db cs (TrustGraph.certificatesWeightFactor cs db).1) ∧
    (db.NoFaults → Spec.FactorAnswer db cs (TrustGraph.certificatesWeightFactor cs db).1) ∧
    (TrustGraph.certificatesWeightFactor cs db).2.relations = db.relations ∧
    (TrustGraph.certificatesWeightFactor cs db).2.roots = db.roots := by
  refine ⟨?_, fun hf => Db.certificatesWeightFactor_answer hh hf cs hs, ?_⟩
  · rcases TrustGraph.certificatesWeightFactor_transparent cs db with ⟨e, he, rfl⟩ | ⟨h, -⟩
    · exact .inl he
    · right
      rw [h]
      have := Db.certificatesWeightFactor_answer hh.calm (Db.calm_noFaults _) cs hs
      generalize (TrustGraph.certificatesWeightFactor cs db.calm).1 = o at this
      cases this with
      | nothing h => exact .nothing h
      | best f h l w => exact .best f h l w
      | refused b a c e h f bad => exact .refused b a c e h f bad
  · exact TrustGraph.certificatesWeightFactor_steps (R := fun a b : Db => b.relations = a.relations ∧ b.roots = a.roots)
      ⟨fun _ => ⟨rfl, rfl⟩, fun _ _ _ h1 h2 => ⟨h2.1.trans h1.1, h2.2.trans h1.2⟩, fun _ _ => ⟨rfl, rfl⟩⟩ cs db

/-- **C111**: there is only one right answer. -/
theorem C111_answer_unique {db : Db} {cs : List Certificate} {x y : Outcome TrustGraphError (Option Nat)}
    (hx : Spec.FactorAnswer db cs x) (hy : Spec.FactorAnswer db cs y) : x = y := by
  have first : ∀ {b a b' a' : List Certificate} {c c' : Certificate} {e e' : TrustGraphError}, b ++ c :: a = b' ++ c' :: a' →
      (∀ x ∈ b, Spec.flaw db x = none) → Spec.flaw db c = some e → (∀ x ∈ b', Spec.flaw db x = none) → Spec.flaw db c' = some e' →
      e = e' := by
    intro b
    induction b with
    | nil =>
      intro a b' a' c c' e e' h _ h1 h2 h3
      rcases b' with _ | ⟨d, b'⟩
      · cases h
        exact Option.some.inj (h1.symm.trans h3)
      · cases h
        rw [h2 c (by simp)] at h1
        cases h1
    | cons d b ih =>
      intro a b' a' c c' e e' h h0 h1 h2 h3
      rcases b' with _ | ⟨d', b'⟩
      · rw [← (List.cons.inj h).1, h0 d (by simp)] at h3
        cases h3
      · rw [List.cons_append, List.cons_append] at h
        exact ih (List.cons.inj h).2 (fun x hx => h0 x (by simp [hx])) h1 (fun x hx => h2 x (by simp [hx])) h3
  cases hx with
  | nothing h =>
    cases hy with
    | nothing => rfl
    | best f hf l w =>
      obtain ⟨c, hc, -⟩ := w.1
      rw [h] at hc; cases hc
    | refused b a c e h' f bad => rw [h] at h'; simp at h'
  | best f hf l w =>
    cases hy with
    | nothing h =>
      obtain ⟨c, hc, -⟩ := w.1
      rw [h] at hc; cases hc
    | best f' hf' l' w' => rw [l.unique l']
    | refused b a c e h' fine bad =>
      rw [hf c (by rw [h']; simp)] at bad
      cases bad
  | refused b a c e h fine bad =>
    cases hy with
    | nothing h' => rw [h] at h'; simp at h'
    | best f' hf' l' w' =>
      rw [hf' c (by rw [h]; simp)] at bad
      cases bad
    | refused b' a' c' e' h' fine' bad' => rw [first (h.symm.trans h') fine bad fine' bad']

/-- **C111**: with what `get_all_certs` returns, the answer is what the weight of a key that is not a root rests on. -/
theorem C111_weight_partial {db db' db'' : Db} {pk : PublicKey} {now : Dur} {w : Nat} {cs : List Certificate} {o : Option Nat}
    (hh : db.Healthy) (hn : db.relations.length + 16 < 2 ^ 32) (hroot : db.rootFactor pk = none)
    (hw : TrustGraph.weight pk now db = (.ok w, db')) (hc : TrustGraph.getAllCerts pk now db = (.ok cs, db''))
    (ho : (TrustGraph.certificatesWeightFactor cs db).1 = .ok o) :
    (o = none ↔ cs = []) ∧ w = match o with | none => 0 | some f => 2 ^ (16 - f) := by
  have hg := weight_ok hh hn hw
  obtain rfl := getAllCerts_ok hh hc
  have hadm := Db.mem_certs_iff hh pk now
  have hshort : ∀ c ∈ db.certs pk now, c.chain.length + 16 < 2 ^ 32 := fun c hcs => by
    have := Db.certs_length_le hh hcs
    omega
  have ans : Spec.FactorAnswer db (db.certs pk now) (.ok o) := by
    have := (C111_factor_partial hh _ hshort).1
    rw [ho] at this
    rcases this with h | h
    · cases h
    · exact h
  cases ans with
  | nothing h =>
    refine ⟨⟨fun _ => h, fun _ => rfl⟩, ?_⟩
    rcases hg.1 with h0 | ⟨f, hf, -⟩ | ⟨c, hc', -⟩
    · exact h0
    · rw [hroot] at hf; cases hf
    · have := (hadm c).mpr hc'
      rw [h] at this; cases this
  | best f hf l wt =>
    refine ⟨⟨(fun h => by cases h), ?_⟩, ?_⟩
    · intro e
      obtain ⟨c, hc', -⟩ := wt.1
      rw [e] at hc'; cases hc'
    · apply le_antisymm
      · rcases hg.1 with h0 | ⟨m, hm, -⟩ | ⟨c, hc', e⟩
        · rw [h0]; exact Nat.zero_le _
        · rw [hroot] at hm; cases hm
        · rw [e]; exact wt.2 ⟨c, (hadm c).mpr hc', rfl⟩
      · obtain ⟨c, hc', e⟩ := wt.1
        dsimp only
        rw [e]
        exact hg.2 (.inr (.inr ⟨c, (hadm c).mp hc', rfl⟩))

end TG
