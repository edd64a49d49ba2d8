/-
Weights on a healthy database: helper lemmas.
-/
import Verif.Spec.Weight
import Verif.Proofs.Reach

namespace TG
open TG.Sqlite
variable [Env]

namespace Db
variable {db : Db}

theorem Healthy.rootFactor_le (hh : db.Healthy) {pk : PublicKey} {f : Nat} (h : db.rootFactor pk = some f) :
    f ≤ 16 := by
  unfold rootFactor at h
  rw [Option.map_eq_some_iff] at h
  obtain ⟨row, hr, rfl⟩ := h
  obtain ⟨pk', wf, hw, rfl⟩ := hh.roots row (List.mem_of_find?_eq_some hr)
  simpa using hw

theorem rootFactor_isSome {pk : PublicKey} :
    (db.rootFactor pk).isSome ↔ ∃ row ∈ db.roots, row.publicKey = keyText pk := by
  unfold rootFactor
  rw [Option.isSome_map, List.find?_isSome]
  simp

theorem getRootWeightFactor_eq (hh : db.Healthy) (hf : db.NoFaults) (pk : PublicKey) :
    Sqlite.getRootWeightFactor pk db = (.ok (db.rootFactor pk), db) := by
  unfold Sqlite.getRootWeightFactor rootFactor
  rw [stmt_noFaults hf]
  rcases h : db.roots.find? _ with _ | row
  · rfl
  · obtain ⟨pk', wf, hw, rfl⟩ := hh.roots row (List.mem_of_find?_eq_some h)
    dsimp only
    rw [if_pos ⟨by omega, by omega⟩]
    rfl

@[simp] theorem rootFactor_collect (now : Dur) (pk : PublicKey) :
    (db.collect now).rootFactor pk = db.rootFactor pk := rfl
@[simp] theorem certWeight_collect (now : Dur) (c : Certificate) :
    (db.collect now).certWeight c = db.certWeight c := rfl

/-- The number computed for one certificate. -/
def factorOf (db : Db) (c : Certificate) : Nat :=
  match c.chain with
  | [] => 0
  | root :: rest => (db.rootFactor root.issuedFor).getD 0 + rest.length

theorem chainFactor_eq {f len : Nat} (hf : f ≤ 16) (h1 : 1 ≤ len) (h2 : len + 16 < 2 ^ 32) :
    TrustGraph.chainFactor f len = .ok (f + (len - 1)) := by
  unfold TrustGraph.chainFactor
  have : len % 2 ^ 32 = len := Nat.mod_eq_of_lt (by omega)
  dsimp only
  rw [this, if_pos ⟨by omega, by omega⟩]
  congr 1
  omega

/-- What the weight computation needs to know about a certificate. -/
structure Weighable (db : Db) (c : Certificate) : Prop where
  ne : c.chain ≠ []
  root : ∀ t, c.chain[0]? = some t → (db.rootFactor t.issuedFor).isSome
  short : c.chain.length + 16 < 2 ^ 32

theorem weightFactorLoop_eq (hh : db.Healthy) (hf : db.NoFaults) (cs : List Certificate)
    (h : ∀ c ∈ cs, Weighable db c) (wf : Nat) :
    TrustGraph.weightFactorLoop cs wf db
      = (.ok (cs.foldl (fun w c => min w (db.factorOf c)) wf), db) := by
  induction cs generalizing wf with
  | nil => rfl
  | cons c cs ih =>
    have hc := h c (by simp)
    unfold TrustGraph.weightFactorLoop
    rcases hch : c.chain with _ | ⟨t, ts⟩
    · exact absurd hch hc.ne
    · obtain ⟨f, hfac⟩ := Option.isSome_iff_exists.mp (hc.root t (by rw [hch]; rfl))
      have hs := hc.short
      rw [hch] at hs
      dsimp only
      have h1 : TrustGraph.storage (Storage.getRootWeightFactor t.issuedFor) db
          = (.ok (db.rootFactor t.issuedFor), db) := Search.storage_ok (getRootWeightFactor_eq hh hf _)
      rw [M.bind_run_ok h1, hfac, Outcome.ofOption_some, M.bind_run_ok (M.lift_run _ _),
        chainFactor_eq (hh.rootFactor_le hfac) (by simp) hs, M.bind_run_ok (M.lift_run _ _),
        ih (fun x hx => h x (List.mem_cons_of_mem _ hx))]
      rw [List.foldl_cons]
      have : db.factorOf c = f + (ts.length + 1 - 1) := by
        unfold factorOf; rw [hch]; simp [hfac]
      rw [this]
      simp

omit [Env] in
theorem foldl_min_le {α : Type} (f : α → Nat) (l : List α) (w : Nat) :
    l.foldl (fun w c => min w (f c)) w ≤ w ∧ ∀ c ∈ l, l.foldl (fun w c => min w (f c)) w ≤ f c := by
  induction l generalizing w with
  | nil => simp
  | cons a l ih =>
    obtain ⟨h1, h2⟩ := ih (min w (f a))
    rw [List.foldl_cons]
    refine ⟨le_trans h1 (min_le_left _ _), ?_⟩
    intro c hc
    rcases List.mem_cons.mp hc with rfl | hc
    · exact le_trans h1 (min_le_right _ _)
    · exact h2 c hc

omit [Env] in
theorem foldl_min_attained {α : Type} (f : α → Nat) (l : List α) (w : Nat) :
    l.foldl (fun w c => min w (f c)) w = w ∨ ∃ c ∈ l, l.foldl (fun w c => min w (f c)) w = f c := by
  induction l generalizing w with
  | nil => simp
  | cons a l ih =>
    rw [List.foldl_cons]
    rcases ih (min w (f a)) with h | ⟨c, hc, h⟩
    · rw [h]
      rcases le_total w (f a) with hl | hl
      · left; exact min_eq_left hl
      · right; exact ⟨a, by simp, min_eq_right hl⟩
    · right; exact ⟨c, List.mem_cons_of_mem _ hc, h⟩

theorem Weighable.certWeight_eq {c : Certificate} (h : Weighable db c) :
    db.certWeight c = getWeightFromFactor (db.factorOf c) := by
  unfold certWeight factorOf getWeightFromFactor maxWeightFactor
  rcases hch : c.chain with _ | ⟨t, ts⟩
  · exact absurd hch h.ne
  · obtain ⟨f, hfac⟩ := Option.isSome_iff_exists.mp (h.root t (by rw [hch]; rfl))
    simp [hfac]

theorem Weighable.factor_lt (hh : db.Healthy) {c : Certificate} (h : Weighable db c) :
    db.factorOf c < 2 ^ 32 := by
  unfold factorOf
  rcases hch : c.chain with _ | ⟨t, ts⟩
  · simp
  · obtain ⟨f, hfac⟩ := Option.isSome_iff_exists.mp (h.root t (by rw [hch]; rfl))
    have := hh.rootFactor_le hfac
    have hs := h.short
    rw [hch, List.length_cons] at hs
    simp [hfac]
    omega

omit [Env] in
theorem getWeightFromFactor_anti {a b : Nat} (h : a ≤ b) : getWeightFromFactor b ≤ getWeightFromFactor a :=
  Nat.pow_le_pow_right (by omega) (by omega)

/-- The candidates given by a list of certificates. -/
theorem certificatesWeightFactor_eq (hh : db.Healthy) (hf : db.NoFaults) (cs : List Certificate)
    (h : ∀ c ∈ cs, Weighable db c) :
    (cs = [] ∧ TrustGraph.certificatesWeightFactor cs db = (.ok none, db)) ∨
    ∃ c ∈ cs, TrustGraph.certificatesWeightFactor cs db = (.ok (some (db.factorOf c)), db) ∧
      ∀ c' ∈ cs, db.certWeight c' ≤ db.certWeight c := by
  rcases cs with _ | ⟨c0, cs⟩
  · exact Or.inl ⟨rfl, rfl⟩
  · right
    have hrun := weightFactorLoop_eq hh hf (c0 :: cs) h (2 ^ 32 - 1)
    generalize hcs : c0 :: cs = l at *
    obtain ⟨c, hc, hm⟩ : ∃ c ∈ l, l.foldl (fun w c => min w (db.factorOf c)) (2 ^ 32 - 1) = db.factorOf c := by
      rcases foldl_min_attained db.factorOf l (2 ^ 32 - 1) with h' | h'
      · have hc0 : c0 ∈ l := by rw [← hcs]; simp
        refine ⟨c0, hc0, ?_⟩
        have h1 := (foldl_min_le db.factorOf l (2 ^ 32 - 1)).2 c0 hc0
        have h2 := (h c0 hc0).factor_lt hh
        rw [h'] at h1 ⊢
        omega
      · exact h'
    refine ⟨c, hc, ?_, ?_⟩
    · rw [← hcs] at hrun ⊢
      change (TrustGraph.weightFactorLoop (c0 :: cs) (2 ^ 32 - 1) >>= fun wf => pure (some wf)) db = _
      rw [M.bind_run_ok hrun, hcs, hm]
      rfl
    · intro c' hc'
      have := (foldl_min_le db.factorOf l (2 ^ 32 - 1)).2 c' hc'
      rw [hm] at this
      rw [(h c' hc').certWeight_eq, (h c hc).certWeight_eq]
      exact getWeightFromFactor_anti this

theorem certs_length_le (hh : db.Healthy) {target : PublicKey} {now : Dur} {c : Certificate}
    (h : c ∈ db.certs target now) : c.chain.length ≤ db.relations.length := by
  have hl := view_lawful (hh.collect now)
  rw [mem_certs_iff hh, ← snapshot_collect hh, Search.admissible_iff hl] at h
  obtain ⟨l, hg, -, e⟩ := h
  have h1 := hg.length_le hl
  rw [← e, List.length_map]
  exact le_trans h1 (List.length_filter_le _ _)

theorem certs_weighable (hh : db.Healthy) (hn : db.relations.length + 16 < 2 ^ 32) (target : PublicKey)
    (now : Dur) : ∀ c ∈ db.certs target now, Weighable (db.collect now) c := by
  intro c hc
  have ha := (mem_certs_iff hh target now c).mp hc
  refine ⟨?_, ?_, ?_⟩
  · intro e
    have := ha.linked.long
    rw [e] at this
    simp at this
  · intro t ht
    rw [rootFactor_collect, rootFactor_isSome]
    exact (ha.linked.root t ht).1
  · have := certs_length_le hh hc
    omega

theorem weight_spec (hh : db.Healthy) (hf : db.NoFaults) (hn : db.relations.length + 16 < 2 ^ 32)
    (pk : PublicKey) (now : Dur) :
    ∃ w, TrustGraph.weight pk now db = (.ok w, db.collect now) ∧ IsGreatest (Spec.weights db pk now) w := by
  have hc := hh.collect now
  have hw := certs_weighable hh hn pk now
  have h1 : TrustGraph.storage (Storage.getRootWeightFactor pk) db
      = (.ok (db.rootFactor pk), db) := Search.storage_ok (getRootWeightFactor_eq hh hf pk)
  have h2 := getAllCerts_eq hh hf pk now
  have hrun : TrustGraph.weight pk now db =
      (do
        let wf ← TrustGraph.certificatesWeightFactor (db.certs pk now)
        match wf with
        | some wf => pure (max (match db.rootFactor pk with
            | some wf => getWeightFromFactor wf
            | none => 0) (getWeightFromFactor wf))
        | none => pure (match db.rootFactor pk with
            | some wf => getWeightFromFactor wf
            | none => 0) : M Db TrustGraphError Nat) (db.collect now) := by
    unfold TrustGraph.weight
    rw [M.bind_run_ok h1, M.bind_run_ok h2]
    rfl
  generalize hroot : (match db.rootFactor pk with
    | some wf => getWeightFromFactor wf
    | none => 0) = rw' at hrun
  have hub : ∀ f, db.rootFactor pk = some f → 2 ^ (16 - f) = rw' := by
    intro f hf'
    rw [hf'] at hroot
    exact hroot
  have hat : rw' ∈ Spec.weights db pk now := by
    rcases hr : db.rootFactor pk with _ | f
    · rw [hr] at hroot
      exact Or.inl hroot.symm
    · exact Or.inr (Or.inl ⟨f, hr, (hub f hr).symm⟩)
  rcases certificatesWeightFactor_eq hc (hf.collect now) _ hw with ⟨he, hcw⟩ | ⟨c, hcm, hcw, hmax⟩
  · refine ⟨rw', ?_, hat, ?_⟩
    · rw [hrun, M.bind_run_ok hcw]; rfl
    · rintro w (rfl | ⟨f, hf', rfl⟩ | ⟨c, hca, rfl⟩)
      · exact Nat.zero_le _
      · rw [hub f hf']
      · rw [← mem_certs_iff hh, he] at hca
        cases hca
  · refine ⟨max rw' (db.certWeight c), ?_, ?_, ?_⟩
    · rw [hrun, M.bind_run_ok hcw]
      have := (hw c hcm).certWeight_eq
      rw [certWeight_collect] at this
      rw [this]
      rfl
    · rcases le_total rw' (db.certWeight c) with h | h
      · rw [max_eq_right h]
        exact Or.inr (Or.inr ⟨c, (mem_certs_iff hh pk now c).mp hcm, rfl⟩)
      · rw [max_eq_left h]
        exact hat
    · rintro w (rfl | ⟨f, hf', rfl⟩ | ⟨c', hca, rfl⟩)
      · exact Nat.zero_le _
      · rw [hub f hf']; exact le_max_left _ _
      · rw [← mem_certs_iff hh] at hca
        exact le_trans (hmax c' hca) (le_max_right _ _)

theorem getAllCertsFrom_eq (hh : db.Healthy) (hf : db.NoFaults) (target issuer : PublicKey) (now : Dur) :
    TrustGraph.getAllCertsFrom target issuer now db =
      (.ok ((db.certs target now).filter (fun c => c.chain.any (fun t => t.issuedFor == issuer))),
        db.collect now) := by
  unfold TrustGraph.getAllCertsFrom
  rw [M.bind_run_ok (getAllCerts_eq hh hf target now)]
  rfl

theorem weightFrom_spec (hh : db.Healthy) (hf : db.NoFaults) (hn : db.relations.length + 16 < 2 ^ 32)
    (pk issuer : PublicKey) (now : Dur) :
    ∃ w, TrustGraph.weightFrom pk issuer now db = (.ok w, db.collect now) ∧
      IsGreatest (Spec.weightsFrom db pk issuer now) w := by
  have hc := hh.collect now
  have h1 := getAllCertsFrom_eq hh hf pk issuer now
  have hmem : ∀ c, c ∈ (db.certs pk now).filter (fun c => c.chain.any (fun t => t.issuedFor == issuer)) ↔
      Spec.Admissible (db.snapshot now) pk c ∧ ∃ t ∈ c.chain, t.issuedFor = issuer := by
    intro c
    rw [List.mem_filter, mem_certs_iff hh]
    simp
  generalize (db.certs pk now).filter _ = cs at *
  have hw : ∀ c ∈ cs, Weighable (db.collect now) c := fun c hcm =>
    certs_weighable hh hn pk now c ((mem_certs_iff hh pk now c).mpr ((hmem c).mp hcm).1)
  rcases certificatesWeightFactor_eq hc (hf.collect now) _ hw with ⟨he, hcw⟩ | ⟨c, hcm, hcw, hmax⟩
  · refine ⟨0, ?_, Or.inl rfl, ?_⟩
    · unfold TrustGraph.weightFrom
      rw [M.bind_run_ok h1, M.bind_run_ok hcw]; rfl
    · rintro w (rfl | ⟨c, hca, hci, rfl⟩)
      · exact Nat.zero_le _
      · have := (hmem c).mpr ⟨hca, hci⟩
        rw [he] at this
        cases this
  · refine ⟨db.certWeight c, ?_, ?_, ?_⟩
    · unfold TrustGraph.weightFrom
      rw [M.bind_run_ok h1, M.bind_run_ok hcw]
      have := (hw c hcm).certWeight_eq
      rw [certWeight_collect] at this
      rw [this]
      simp
    · exact Or.inr ⟨c, ((hmem c).mp hcm).1, ((hmem c).mp hcm).2, rfl⟩
    · rintro w (rfl | ⟨c', hca, hci, rfl⟩)
      · exact Nat.zero_le _
      · exact hmax c' ((hmem c').mpr ⟨hca, hci⟩)

end Db
end TG
