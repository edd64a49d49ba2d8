/-
Properties C01–C09: what `get_all_certs` and `get_all_certs_from` return.

`db` is any healthy database (every reachable one is: `Reachable.healthy`) with any schedule of SQL faults; the theorems speak
about every call that returns `Ok`.  The row order chosen by SQLite is the arbitrary permutation `Env.scan`.
-/
import Verif.Proofs.Weight
import Verif.Proofs.Certificate
import Verif.Props.Demo

namespace TG
variable [Env]

theorem getAllCerts_ok {db db' : Db} {target : PublicKey} {now : Dur} {cs : List Certificate}
    (hh : db.Healthy) (h : TrustGraph.getAllCerts target now db = (.ok cs, db')) :
    cs = db.certs target now := by
  have h1 := (TrustGraph.getAllCerts_transparent target now).ok h
  rw [Db.getAllCerts_eq hh.calm (Db.calm_noFaults _)] at h1
  exact (Outcome.ok.inj (Prod.ext_iff.mp h1).1).symm

/-- **C01.** Every returned certificate is a chain of at least two stored, live trusts, starting with the self-signed trust of a
registered root, each trust issued by the key of the preceding one, and ending at the target. -/
theorem C01_rooted_linked_chains {db db' : Db} {target : PublicKey} {now : Dur} {cs : List Certificate}
    (hh : db.Healthy) (h : TrustGraph.getAllCerts target now db = (.ok cs, db')) :
    ∀ c ∈ cs, Spec.Linked (db.snapshot now) target c.chain := by
  intro c hc
  rw [getAllCerts_ok hh h] at hc
  exact ((Db.mem_certs_iff hh target now c).mp hc).linked

/-- **C02.** The returned certificates are exactly the admissible ones, each once. -/
theorem C02_complete_exactly_once {db db' : Db} {target : PublicKey} {now : Dur} {cs : List Certificate}
    (hh : db.Healthy) (h : TrustGraph.getAllCerts target now db = (.ok cs, db')) :
    cs.Nodup ∧ ∀ c, c ∈ cs ↔ Spec.Admissible (db.snapshot now) target c := by
  rw [getAllCerts_ok hh h]
  exact ⟨Db.certs_nodup hh target now, Db.mem_certs_iff hh target now⟩

/-- **C03.** Shortest first. -/
theorem C03_shortest_first {db db' : Db} {target : PublicKey} {now : Dur} {cs : List Certificate}
    (hh : db.Healthy) (h : TrustGraph.getAllCerts target now db = (.ok cs, db')) :
    cs.Pairwise (fun c c' => c.chain.length ≤ c'.chain.length) := by
  rw [getAllCerts_ok hh h]
  exact Db.certs_sorted db target now

/-- The only outcomes of a call are `Ok` and a storage error. -/
def Returns {α : Type} (o : Outcome TrustGraphError α) : Prop :=
  (∃ a, o = .ok a) ∨ o = .err .internalStorageError

omit [Env] in
theorem returns_of {α : Type} {x : M Db TrustGraphError α} (ht : Transparent IsInternal x) {db : Db}
    (h : ∃ a s, x db.calm = (.ok a, s)) : Returns (x db).1 := by
  obtain ⟨a, s, h⟩ := h
  rcases ht db with ⟨e, he, rfl⟩ | ⟨he, -⟩
  · exact Or.inr he
  · exact Or.inl ⟨a, by rw [he, h]⟩

/-- **C04** (certificates).  Searching always returns: it neither panics nor runs forever, whatever the graph. -/
theorem C04_search_returns {db : Db} (hh : db.Healthy) (target issuer : PublicKey) (now : Dur) :
    Returns (TrustGraph.getAllCerts target now db).1 ∧
    Returns (TrustGraph.getAllCertsFrom target issuer now db).1 :=
  ⟨returns_of (TrustGraph.getAllCerts_transparent _ _)
      ⟨_, _, Db.getAllCerts_eq hh.calm (Db.calm_noFaults _) _ _⟩,
    returns_of (TrustGraph.getAllCertsFrom_transparent _ _ _)
      ⟨_, _, Db.getAllCertsFrom_eq hh.calm (Db.calm_noFaults _) _ _ _⟩⟩

theorem Spec.count_le_two {ks : List PublicKey}
    (h : ∀ (i j : Nat) a, i < j → ks[i]? = some a → ks[j]? = some a → j = i + 1) (k : PublicKey) :
    ks.count k ≤ 2 := by
  induction ks with
  | nil => simp
  | cons a ks ih =>
    have ih := ih fun i j x hij hi hj => by
      have := h (i + 1) (j + 1) x (by omega) hi hj
      omega
    rw [List.count_cons]
    split
    · rename_i hak
      rw [beq_iff_eq] at hak
      subst hak
      rcases ks with _ | ⟨b, ks⟩
      · simp
      · have h0 : ks.count a = 0 := by
          rw [List.count_eq_zero]
          intro hm
          obtain ⟨i, hi, e⟩ := List.getElem_of_mem hm
          have := h 0 (i + 2) a (by omega) rfl (by
            show ks[i]? = some a
            rw [List.getElem?_eq_getElem hi, e])
          omega
        rw [List.count_cons, h0]
        split <;> omega
    · exact ih

theorem Spec.NoRevisit.count_le {ts : List Trust} (h : Spec.NoRevisit ts) (k : PublicKey) :
    (ts.map (·.issuedFor)).count k ≤ 2 := by
  refine Spec.count_le_two (fun i j a hij hi hj => ?_) k
  rw [List.getElem?_map, Option.map_eq_some_iff] at hi hj
  obtain ⟨x, hx, rfl⟩ := hi
  obtain ⟨y, hy, e⟩ := hj
  exact (h i j x y hij hx hy e.symm).2

/-- A list in which no element occurs more than twice, drawn from `keys`, has at most `2 * keys.length` elements. -/
theorem length_le_of_count {l keys : List PublicKey} (h2 : ∀ k, l.count k ≤ 2) (hk : ∀ x ∈ l, x ∈ keys) :
    l.length ≤ 2 * keys.length := by
  induction keys generalizing l with
  | nil =>
    rcases l with _ | ⟨a, l⟩
    · simp
    · exact absurd (hk a (by simp)) (by simp)
  | cons k keys ih =>
    have := ih (l := l.filter (fun x => x ≠ k))
      (fun x => le_trans (List.filter_sublist.count_le x) (h2 x))
      (fun x hx => by
        rw [List.mem_filter] at hx
        rcases List.mem_cons.mp (hk x hx.1) with rfl | h
        · simp at hx
        · exact h)
    have hsplit := List.length_eq_countP_add_countP (fun x => x == k) (l := l)
    have hcount := h2 k
    unfold List.count at hcount
    rw [List.length_cons]
    have : l.countP (fun a => ¬ (a == k) = true) = (l.filter (fun x => x ≠ k)).length := by
      rw [List.countP_eq_length_filter]
      congr 1
      apply List.filter_congr
      intro x _
      simp
    omega

/-- **C05.** A key occurs twice in a certificate only as the two ends of a self-signed trust after the root; the length
is at most twice the number of keys involved. -/
theorem C05_no_key_revisited {db db' : Db} {target : PublicKey} {now : Dur} {cs : List Certificate}
    (hh : db.Healthy) (h : TrustGraph.getAllCerts target now db = (.ok cs, db')) :
    ∀ c ∈ cs, Spec.NoRevisit c.chain ∧
      ∀ keys : List PublicKey, (∀ t ∈ c.chain, t.issuedFor ∈ keys) → c.chain.length ≤ 2 * keys.length := by
  intro c hc
  rw [getAllCerts_ok hh h] at hc
  have hn := ((Db.mem_certs_iff hh target now c).mp hc).noRevisit
  refine ⟨hn, ?_⟩
  intro keys hk
  have := length_le_of_count (l := c.chain.map (·.issuedFor)) (keys := keys) hn.count_le (by
    intro x hx
    obtain ⟨t, ht, rfl⟩ := List.mem_map.mp hx
    exact hk t ht)
  simpa using this

theorem Spec.mem_issuers {ts : List Trust} {a : PublicKey} (hl : 2 ≤ ts.length) (h : a ∈ Spec.issuers ts) :
    ∃ (i : Nat) (t : Trust), i + 1 < ts.length ∧ ts[i]? = some t ∧ t.issuedFor = a := by
  rcases ts with _ | ⟨t, ts⟩
  · simp at hl
  · rw [Spec.issuers, List.mem_cons] at h
    rcases h with rfl | h
    · exact ⟨0, t, by omega, rfl, rfl⟩
    · obtain ⟨x, hx, rfl⟩ := List.mem_map.mp h
      obtain ⟨i, hi, rfl⟩ := List.getElem_of_mem hx
      rw [List.length_dropLast] at hi
      exact ⟨i, _, by omega, by rw [List.getElem?_eq_getElem (by omega)]; simp, rfl⟩

theorem Spec.mem_issuers_of {ts : List Trust} {i : Nat} {t : Trust} (h : ts[i]? = some t) (hi : i + 1 < ts.length) :
    t.issuedFor ∈ Spec.issuers ts := by
  rcases ts with _ | ⟨t0, ts⟩
  · simp at hi
  · rw [Spec.issuers, List.mem_cons]
    right
    rw [List.mem_map]
    refine ⟨t, List.mem_of_getElem? (i := i) (l := (t0 :: ts).dropLast) ?_, rfl⟩
    rw [List.getElem?_dropLast, if_pos (by omega), h]

/-- **C06.** Nobody who has revoked the target is an issuer of a trust in one of its certificates. -/
theorem C06_revoker_of_target_absent {db db' : Db} {target a : PublicKey} {now : Dur} {cs : List Certificate}
    (hh : db.Healthy) (h : TrustGraph.getAllCerts target now db = (.ok cs, db'))
    (hrev : (db.snapshot now).revoked a target) :
    ∀ c ∈ cs, a ∉ Spec.issuers c.chain := by
  intro c hc ha
  rw [getAllCerts_ok hh h] at hc
  have hadm := (Db.mem_certs_iff hh target now c).mp hc
  have hl := hadm.linked.long
  obtain ⟨i, t, hi, ht, rfl⟩ := Spec.mem_issuers hl ha
  have hlast : c.chain[c.chain.length - 1]? = some (c.chain[c.chain.length - 1]'(by omega)) :=
    List.getElem?_eq_getElem _
  have := hadm.unrevoked i (c.chain.length - 1) t _ (by omega) ht hlast (by omega)
  rw [hadm.linked.target _ hlast] at this
  exact this hrev

/-- **C07**, what holds: no returned certificate contains a key before a key it has revoked — unless the revoked key is
the issuer of the last trust.  The full statement has `Spec.Unrevoked` in place of `Spec.UnrevokedExceptLastIssuer`; it is
refuted by `C07_revocation_on_chain_fails`. -/
theorem C07_revocation_on_chain_partial {db db' : Db} {target : PublicKey} {now : Dur} {cs : List Certificate}
    (hh : db.Healthy) (h : TrustGraph.getAllCerts target now db = (.ok cs, db')) :
    ∀ c ∈ cs, Spec.UnrevokedExceptLastIssuer (db.snapshot now) c.chain := by
  intro c hc
  rw [getAllCerts_ok hh h] at hc
  exact ((Db.mem_certs_iff hh target now c).mp hc).unrevoked

theorem live_total {t : Trust} {now : Dur} (hlt : now.secs.toNat < 2 ^ 63) (h : Spec.Live t now) :
    now.total ≤ t.expiresAt.total := by
  unfold Spec.Live at h
  rw [asI64_of_lt hlt] at h
  have hn := now.nanos.isLt
  unfold Dur.total
  by_cases h2 : t.expiresAt.secs.toNat < 2 ^ 63
  · rw [asI64_of_lt h2] at h
    have : now.secs.toNat + 1 ≤ t.expiresAt.secs.toNat := by omega
    omega
  · rw [asI64_of_ge (by omega)] at h
    have := t.expiresAt.secs.toNat_lt
    omega

/-- **C08**, for times below 2^63 seconds: after any history, every returned certificate passes `Certificate::verify` with the
registered roots as trusted roots.  (For later times it fails: `C08_returned_verify_fails`.) -/
theorem C08_returned_verify_partial {db db' : Db} {target : PublicKey} {now : Dur} {cs : List Certificate}
    (hr : Reachable db) (hnow : now.secs.toNat < 2 ^ 63)
    (h : TrustGraph.getAllCerts target now db = (.ok cs, db')) (roots : List PublicKey)
    (hroots : ∀ pk, (db.snapshot now).root pk → pk ∈ roots) :
    ∀ c ∈ cs, c.verify roots now = .ok () := by
  intro c hc
  rw [getAllCerts_ok hr.healthy h] at hc
  have hadm := ((Db.mem_certs_iff hr.healthy target now c).mp hc).linked
  have hv : ∀ by' t, (db.snapshot now).trusted by' t → t.verify by' now = .ok () := by
    intro by' t ht
    rw [Trust.verify_iff]
    exact ⟨live_total hnow ht.2, hr.verified _ ht.1⟩
  rw [Certificate.verify_iff]
  refine ⟨?_, ?_, ?_⟩
  · intro e
    have := hadm.long
    rw [e] at this
    simp at this
  · intro t ht
    obtain ⟨h1, h2⟩ := hadm.root t ht
    exact ⟨hv _ _ h2, hroots _ h1⟩
  · intro i a b ha hb
    exact hv _ _ (hadm.link i a b ha hb)

/-- **C09**, what holds: `get_all_certs_from` returns the certificates of `get_all_certs`, in the same order, in which `issuer` is
one of the keys that trusts were issued *for*. -/
theorem C09_from_selects_partial {db db' : Db} {target issuer : PublicKey} {now : Dur} {cs : List Certificate}
    (hh : db.Healthy) (h : TrustGraph.getAllCertsFrom target issuer now db = (.ok cs, db')) :
    ∃ all db'', TrustGraph.getAllCerts target now db.calm = (.ok all, db'') ∧
      cs = all.filter (fun c => decide (∃ t ∈ c.chain, t.issuedFor = issuer)) := by
  refine ⟨_, _, Db.getAllCerts_eq hh.calm (Db.calm_noFaults _) target now, ?_⟩
  have h1 := (TrustGraph.getAllCertsFrom_transparent target issuer now).ok h
  rw [Db.getAllCertsFrom_eq hh.calm (Db.calm_noFaults _)] at h1
  rw [← Outcome.ok.inj (Prod.ext_iff.mp h1).1]
  apply List.filter_congr
  intro c _
  rw [Bool.eq_iff_iff]
  simp

/-- **C09**, for `issuer ≠ target`: exactly the certificates in which some trust was issued *by* `issuer`, in the same
order.  (For `issuer = target` it fails: `C09_from_selects_fails`.) -/
theorem C09_from_issuers_partial {db db' : Db} {target issuer : PublicKey} {now : Dur} {cs : List Certificate}
    (hh : db.Healthy) (hne : issuer ≠ target)
    (h : TrustGraph.getAllCertsFrom target issuer now db = (.ok cs, db')) :
    ∃ all db'', TrustGraph.getAllCerts target now db.calm = (.ok all, db'') ∧
      cs = all.filter (fun c => decide (issuer ∈ Spec.issuers c.chain)) := by
  obtain ⟨all, db'', hall, e⟩ := C09_from_selects_partial hh h
  refine ⟨all, db'', hall, ?_⟩
  rw [e]
  apply List.filter_congr
  intro c hc
  rw [decide_eq_decide]
  have hl := C01_rooted_linked_chains hh.calm hall c hc
  constructor
  · rintro ⟨t, ht, rfl⟩
    obtain ⟨i, hi, rfl⟩ := List.getElem_of_mem ht
    have hnl : i ≠ c.chain.length - 1 := by
      rintro rfl
      exact hne (hl.target _ (List.getElem?_eq_getElem hi))
    exact Spec.mem_issuers_of (List.getElem?_eq_getElem hi) (by omega)
  · intro hi
    obtain ⟨i, t, _, ht, rfl⟩ := Spec.mem_issuers hl.long hi
    exact ⟨t, List.mem_of_getElem? ht, rfl⟩

end TG
