/-
What `get_all_certs` returns on a healthy database: helper lemmas.
-/
import Verif.Proofs.Db

namespace TG
variable [Env]

namespace Db
variable {db : Db}

/-- The registered root keys, in table order. -/
def rootList (db : Db) : List PublicKey :=
  db.roots.filterMap (fun row => (PublicKey.fromBase58 row.publicKey).toOption)

theorem parseRoots_eq (rows : List RootRow)
    (h : ∀ row ∈ rows, ∃ (pk : PublicKey) (wf : Nat), wf ≤ 16 ∧ row = ⟨keyText pk, wf⟩) :
    Sqlite.parseRoots rows =
      .ok (rows.filterMap (fun row => (PublicKey.fromBase58 row.publicKey).toOption)) := by
  induction rows with
  | nil => rfl
  | cons row rows ih =>
    obtain ⟨pk, wf, -, rfl⟩ := h row (by simp)
    rw [Sqlite.parseRoots, ih (fun x hx => h x (List.mem_cons_of_mem _ hx)), List.filterMap_cons,
      PublicKey.fromBase58_keyText]
    rfl

theorem rootKeys_eq (hh : db.Healthy) (hf : db.NoFaults) :
    Sqlite.rootKeys db = (.ok db.rootList, db) := by
  unfold Sqlite.rootKeys
  rw [stmt_noFaults hf, parseRoots_eq _ hh.roots]
  rfl

theorem mem_rootList (hh : db.Healthy) (pk : PublicKey) :
    pk ∈ db.rootList ↔ ∃ row ∈ db.roots, row.publicKey = keyText pk := by
  unfold rootList
  rw [List.mem_filterMap]
  constructor
  · rintro ⟨row, hr, h⟩
    obtain ⟨pk', wf, -, rfl⟩ := hh.roots row hr
    rw [PublicKey.fromBase58_keyText] at h
    cases h
    exact ⟨_, hr, rfl⟩
  · rintro ⟨row, hr, h⟩
    exact ⟨row, hr, by rw [h, PublicKey.fromBase58_keyText]; rfl⟩

theorem stored_collect {r : TrustRelation} (now : Dur) :
    (db.collect now).Stored r ↔ db.Stored r ∧ (∀ a, r = .auth a → Spec.Live a.trust now) := by
  unfold Stored collect
  simp only [List.mem_filter, decide_eq_true_eq, not_and]
  constructor
  · rintro ⟨hw, hm, hl⟩
    refine ⟨⟨hw, hm⟩, ?_⟩
    rintro a rfl
    by_contra hlive
    exact hl (Int.not_lt.mp hlive) rfl
  · rintro ⟨⟨hw, hm⟩, hl⟩
    refine ⟨hw, hm, ?_⟩
    intro he hty
    obtain ⟨a, rfl⟩ := relationType_auth_iff.mp hty
    have := hl a rfl
    unfold Spec.Live at this
    exact absurd he (Int.not_le.mpr this)

theorem Healthy.collect (hh : db.Healthy) (now : Dur) : (db.collect now).Healthy where
  rows row hr := hh.rows row (List.mem_filter.mp hr).1
  unique := hh.unique.filter _
  roots := hh.roots

omit [Env] in
theorem NoFaults.collect (hf : db.NoFaults) (now : Dur) : (db.collect now).NoFaults := hf

omit [Env] in
theorem removeExpired_eq (hf : db.NoFaults) (now : Dur) :
    Sqlite.removeExpired now db = (.ok (), db.collect now) := by
  unfold Sqlite.removeExpired
  rw [stmt_noFaults hf]
  rfl

theorem snapshot_collect (hh : db.Healthy) (now : Dur) :
    (db.collect now).view.snapshot (db.collect now).rootList = db.snapshot now := by
  have hc := hh.collect now
  unfold Search.View.snapshot snapshot
  congr 1
  · funext by' t
    rw [mem_view_auths hc, stored_collect]
    simp
  · funext by' pk
    apply propext
    rw [List.mem_map]
    constructor
    · rintro ⟨r, hr, rfl⟩
      obtain ⟨h1, h2⟩ := (mem_view_revs hc).mp hr
      rw [stored_collect] at h1
      exact ⟨r, h1.1, rfl, h2⟩
    · rintro ⟨r, hr, rfl, rfl⟩
      exact ⟨r, (mem_view_revs hc).mpr ⟨(stored_collect now).mpr ⟨hr, by simp⟩, rfl⟩, rfl⟩
  · funext pk
    apply propext
    exact mem_rootList hc pk

/-- The certificates of `target` at `now`, in the order in which they are returned. -/
def certs (db : Db) (target : PublicKey) (now : Dur) : List Certificate :=
  (Search.paths (db.collect now).view (db.collect now).relations.length (db.collect now).rootList
    target).map TrustGraph.toCertificate

omit [Env] in
theorem filterShort_id [Env] (cs : List Certificate) (h : ∀ c ∈ cs, 1 < c.chain.length) :
    TrustGraph.filterShort cs = .ok cs := by
  induction cs with
  | nil => rfl
  | cons c cs ih =>
    rw [TrustGraph.filterShort, if_pos (h c (by simp)), ih (fun x hx => h x (List.mem_cons_of_mem _ hx))]
    rfl

theorem toCertificate_chain (l : List Auth) :
    (TrustGraph.toCertificate l).chain = l.reverse.map (·.trust) := by
  simp [TrustGraph.toCertificate, Certificate.newUnverified, List.map_reverse]

theorem mem_certs_iff (hh : db.Healthy) (target : PublicKey) (now : Dur) (c : Certificate) :
    c ∈ db.certs target now ↔ Spec.Admissible (db.snapshot now) target c := by
  have hl := view_lawful (hh.collect now)
  rw [← snapshot_collect hh, Search.admissible_iff hl]
  unfold certs
  simp only [List.mem_map, Search.mem_paths_iff hl]
  constructor
  · rintro ⟨l, ⟨hg, ht⟩, rfl⟩
    exact ⟨l.reverse, hg, ht, (toCertificate_chain l).symm⟩
  · rintro ⟨l, hg, ht, e⟩
    refine ⟨l.reverse, by simpa using ⟨hg, ht⟩, ?_⟩
    cases c
    rw [TrustGraph.toCertificate, Certificate.newUnverified]
    simpa using e

theorem certs_nodup (hh : db.Healthy) (target : PublicKey) (now : Dur) : (db.certs target now).Nodup := by
  have hl := view_lawful (hh.collect now)
  refine List.Nodup.map_on ?_ (Search.paths_nodup hl _ _)
  intro a ha b hb e
  rw [Search.mem_paths_iff hl] at ha hb
  have e' : a.reverse.map (·.trust) = b.reverse.map (·.trust) := by
    rw [← toCertificate_chain, ← toCertificate_chain, e]
  have := Search.trusts_inj hl ha.1 ha.2 hb.1 hb.2 e'
  simpa using this

theorem certs_sorted (db : Db) (target : PublicKey) (now : Dur) :
    (db.certs target now).Pairwise (fun c c' => c.chain.length ≤ c'.chain.length) := by
  unfold certs
  rw [List.pairwise_map]
  refine (Search.paths_sorted _ _ _).imp ?_
  intro a b h
  rw [toCertificate_chain, toCertificate_chain]
  simpa using h

theorem getAllCerts_eq (hh : db.Healthy) (hf : db.NoFaults) (target : PublicKey) (now : Dur) :
    TrustGraph.getAllCerts target now db = (.ok (db.certs target now), db.collect now) := by
  have hl := view_lawful (hh.collect now)
  have hc := hh.collect now
  unfold TrustGraph.getAllCerts
  have h1 : TrustGraph.storage (Storage.removeExpired now) db = (.ok (), db.collect now) :=
    Search.storage_ok (removeExpired_eq hf now)
  have h2 : TrustGraph.storage (Storage.rootKeys) (db.collect now)
      = (.ok (db.collect now).rootList, db.collect now) :=
    Search.storage_ok (rootKeys_eq hc (hf.collect now))
  rw [M.bind_run_ok h1, M.bind_run_ok h2]
  have hb := Search.bfSearchPaths_eq (reads hc (hf.collect now)) (db.collect now).rootList target
  rw [show (Storage.ghostBound (db.collect now)) = (db.collect now).relations.length from rfl,
    Search.loop_result hl] at hb
  rw [M.bind_run_ok hb, M.lift_run]
  have := filterShort_id (db.certs target now) (fun c hc' => by
    have := ((mem_certs_iff hh target now c).mp hc').linked.long
    omega)
  unfold certs at this ⊢
  rw [this]

end Db
end TG
