/-
Properties C10–C14: weights.  As in `Props/Certs`, `db` is any healthy database with any schedule of SQL faults.

The hypothesis `db.relations.length + 16 < 2^32` excludes overflow of the `u32` chain length.
-/
import Verif.Props.Certs

namespace TG
variable [Env]

theorem weight_ok {db db' : Db} {pk : PublicKey} {now : Dur} {w : Nat} (hh : db.Healthy)
    (hn : db.relations.length + 16 < 2 ^ 32) (h : TrustGraph.weight pk now db = (.ok w, db')) :
    IsGreatest (Spec.weights db pk now) w := by
  have h1 := (TrustGraph.weight_transparent pk now).ok h
  obtain ⟨w', hw, hg⟩ := Db.weight_spec hh.calm (Db.calm_noFaults _) hn pk now
  rw [hw] at h1
  cases (Prod.ext_iff.mp h1).1
  exact hg

theorem weightFrom_ok {db db' : Db} {pk issuer : PublicKey} {now : Dur} {w : Nat} (hh : db.Healthy)
    (hn : db.relations.length + 16 < 2 ^ 32) (h : TrustGraph.weightFrom pk issuer now db = (.ok w, db')) :
    IsGreatest (Spec.weightsFrom db pk issuer now) w := by
  have h1 := (TrustGraph.weightFrom_transparent pk issuer now).ok h
  obtain ⟨w', hw, hg⟩ := Db.weightFrom_spec hh.calm (Db.calm_noFaults _) hn pk issuer now
  rw [hw] at h1
  cases (Prod.ext_iff.mp h1).1
  exact hg

/-- **C10.** The weight is the greatest of: 0, the weight of the key as a root, the worth of its certificates. -/
theorem C10_weight_is_best {db db' : Db} {pk : PublicKey} {now : Dur} {w : Nat} (hh : db.Healthy)
    (hn : db.relations.length + 16 < 2 ^ 32) (h : TrustGraph.weight pk now db = (.ok w, db')) :
    IsGreatest (Spec.weights db pk now) w :=
  weight_ok hh hn h

/-- **C10**, the factor of a root: after a single `set_root(pk, n)` the root weight is `2^min(16, n)`. -/
theorem C10_root_weight {db : Db} {pk : PublicKey} (hnew : ∀ row ∈ db.roots, row.publicKey ≠ keyText pk)
    (hf : db.NoFaults) (n : Nat) :
    ∃ f, (TrustGraph.setRoot pk n db).1 = .ok () ∧ (TrustGraph.setRoot pk n db).2.rootFactor pk = some f ∧
      2 ^ (16 - f) = 2 ^ min 16 n := by
  have e : TrustGraph.setRoot pk n db = (.ok (), db.addRoot pk (getWeightFactor n)) := by
    unfold TrustGraph.setRoot
    apply Search.storage_ok
    show Sqlite.setRootWeightFactor pk (getWeightFactor n) db = _
    unfold Sqlite.setRootWeightFactor
    rw [Db.stmt_noFaults hf]
    rfl
  rw [e]
  refine ⟨getWeightFactor n, rfl, ?_, ?_⟩
  · unfold Db.rootFactor Db.addRoot
    rw [List.find?_append, List.find?_eq_none.mpr (by simpa using hnew)]
    simp
  · unfold getWeightFactor maxWeightFactor
    congr 1
    omega

theorem certWeight_pow {db : Db} {pk : PublicKey} {now : Dur} {c : Certificate}
    (h : Spec.Admissible (db.snapshot now) pk c) : ∃ k, k ≤ 16 ∧ db.certWeight c = 2 ^ k := by
  unfold Db.certWeight
  rcases hc : c.chain with _ | ⟨t, ts⟩
  · have := h.linked.long
    rw [hc] at this
    simp at this
  · obtain ⟨f, hf⟩ := Option.isSome_iff_exists.mp
      (Db.rootFactor_isSome.mpr (h.linked.root t (by rw [hc]; rfl)).1)
    simp only [hf]
    exact ⟨_, by omega, rfl⟩

/-- **C11.** The weight is 0 or a power of two up to 2^16; it is 0 exactly if the key is not a root and has no certificate. -/
theorem C11_zero_or_power_of_two {db db' : Db} {pk : PublicKey} {now : Dur} {w : Nat} (hh : db.Healthy)
    (hn : db.relations.length + 16 < 2 ^ 32) (h : TrustGraph.weight pk now db = (.ok w, db')) :
    (w = 0 ∨ ∃ k, k ≤ 16 ∧ w = 2 ^ k) ∧
    (w = 0 ↔ ¬ (db.snapshot now).root pk ∧ ∀ c, ¬ Spec.Admissible (db.snapshot now) pk c) := by
  obtain ⟨hm, hu⟩ := weight_ok hh hn h
  constructor
  · rcases hm with rfl | ⟨f, _, rfl⟩ | ⟨c, hc, rfl⟩
    · exact Or.inl rfl
    · exact Or.inr ⟨_, by omega, rfl⟩
    · exact Or.inr (certWeight_pow hc)
  · constructor
    · rintro rfl
      refine ⟨?_, ?_⟩
      · intro hr
        obtain ⟨f, hf⟩ := Option.isSome_iff_exists.mp (Db.rootFactor_isSome.mpr hr)
        have := hu (Or.inr (Or.inl ⟨f, hf, rfl⟩))
        have h2 := Nat.two_pow_pos (16 - f)
        omega
      · intro c hc
        obtain ⟨k, _, hk⟩ := certWeight_pow hc
        have := hu (Or.inr (Or.inr ⟨c, hc, rfl⟩))
        have h2 := Nat.two_pow_pos k
        omega
    · rintro ⟨hr, hc⟩
      rcases hm with rfl | ⟨f, hf, rfl⟩ | ⟨c, hc', rfl⟩
      · rfl
      · exact absurd (Db.rootFactor_isSome.mp (by rw [hf]; rfl)) hr
      · exact absurd hc' (hc c)

/-- **C12**, what holds: every trust after the root trust halves the worth of a certificate, as long as there are at most
`maxLen = 16 - factor` of them; a certificate with more is still worth 1.  The full statement would have 0 instead
of 1; it is refuted by `C12_max_chain_len_fails`. -/
theorem C12_max_chain_len_partial {db : Db} {root : Trust} {rest : List Trust} {f : Nat}
    (hf : db.rootFactor root.issuedFor = some f) :
    (rest.length ≤ 16 - f → db.certWeight ⟨root :: rest⟩ * 2 ^ rest.length = 2 ^ (16 - f)) ∧
    (16 - f ≤ rest.length → db.certWeight ⟨root :: rest⟩ = 1) := by
  unfold Db.certWeight
  simp only [hf]
  constructor
  · intro h
    rw [← Nat.pow_add]
    congr 1
    omega
  · intro h
    have : 16 - (f + rest.length) = 0 := by omega
    rw [this]

/-- **C13.** `weight_from` is the greatest worth of the certificates that contain `issuer` (0 if there are none), and never
exceeds `weight`. -/
theorem C13_weight_from_le_weight {db db' db'' : Db} {pk issuer : PublicKey} {now : Dur} {w wf : Nat}
    (hh : db.Healthy) (hn : db.relations.length + 16 < 2 ^ 32)
    (h : TrustGraph.weight pk now db = (.ok w, db'))
    (hf : TrustGraph.weightFrom pk issuer now db = (.ok wf, db'')) :
    IsGreatest (Spec.weightsFrom db pk issuer now) wf ∧ wf ≤ w := by
  have h1 := weight_ok hh hn h
  have h2 := weightFrom_ok hh hn hf
  refine ⟨h2, ?_⟩
  rcases h2.1 with rfl | ⟨c, hc, -, rfl⟩
  · exact Nat.zero_le _
  · exact h1.2 (Or.inr (Or.inr ⟨c, hc, rfl⟩))

/-- **C14** (certificates).  On every reachable database, while SQL statements succeed, certificate queries succeed. -/
theorem C14_cert_queries_succeed {db : Db} (hr : Reachable db) (hf : db.NoFaults) (pk issuer : PublicKey)
    (now : Dur) :
    (∃ cs, (TrustGraph.getAllCerts pk now db).1 = .ok cs) ∧
    (∃ cs, (TrustGraph.getAllCertsFrom pk issuer now db).1 = .ok cs) :=
  ⟨⟨_, by rw [Db.getAllCerts_eq hr.healthy hf]⟩, ⟨_, by rw [Db.getAllCertsFrom_eq hr.healthy hf]⟩⟩

end TG
