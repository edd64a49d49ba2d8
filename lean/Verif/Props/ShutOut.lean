/-
Property C113: shutting a key out.
-/
import Verif.Props.Access

namespace TG
variable [Env]

/-- The key is no root, and every root has revoked it. -/
def Spec.ShutOut (db : Db) (K : PublicKey) : Prop :=
  db.rootFactor K = none ∧ ∀ R, (db.rootFactor R).isSome → ∃ r, db.Stored (.revocation r) ∧ r.revokedBy = R ∧ r.pk = K

/-- The call does not let the key in again: it sets no other root, and it submits no trust of a root in the key that was issued after the root's
revocation. -/
def Spec.KeepsOut (db : Db) (K : PublicKey) (op : Op) : Prop :=
  (∀ k n, op = .setRoot k n → (db.rootFactor k).isSome) ∧
  ∀ a r, op.Submits (.auth a) → (db.rootFactor a.issuedBy).isSome → a.trust.issuedFor = K →
    db.Stored (.revocation r) → r.revokedBy = a.issuedBy → r.pk = K → a.trust.issuedAt.total ≤ r.revokedAt.total

theorem Spec.ShutOut.later {db db' : Db} {K : PublicKey} (hr : Reachable db) (hs : Spec.ShutOut db K) (hl : Later (Spec.KeepsOut db K) db db') :
    Spec.ShutOut db' K := by
  have hroots : ∀ k, (db'.rootFactor k).isSome → (db.rootFactor k).isSome := (hl.mono fun op h => h.1).roots fun _ h => h
  constructor
  · rcases h : db'.rootFactor K with _ | f
    · rfl
    · have := hroots K (by rw [h]; rfl)
      rw [hs.1] at this
      cases this
  · intro R hR
    obtain ⟨r, h1, h2, h3⟩ := hs.2 R (hroots R hR)
    obtain ⟨⟨r', h4, h5, h6, -⟩, -⟩ := C29_revocation_stays_partial hr h1 (hl.mono fun op h a ha hc => h.2 a r ha
      (by rw [hc.1, h2]; exact hroots R hR) (hc.2.trans h3) h1 hc.1.symm h3)
    exact ⟨r', h4, h5.trans h2, h6.trans h3⟩

/-- Where on a certificate a key can be that is shut out. -/
theorem Spec.ShutOut.position {db : Db} {K X : PublicKey} {now : Dur} {c : Certificate} (hs : Spec.ShutOut db K)
    (hc : Spec.Admissible (db.snapshot now) X c) {i : Nat} {t : Trust} (hi : c.chain[i]? = some t) (hK : t.issuedFor = K) :
    i + 2 = c.chain.length := by
  by_contra hne
  have hlong := hc.linked.long
  have h0 : c.chain[0]? = some c.chain[0] := List.getElem?_eq_getElem (by omega)
  have hroot := Db.rootFactor_isSome.mpr (hc.linked.root _ h0).1
  rcases Nat.eq_zero_or_pos i with rfl | hpos
  · rw [h0] at hi
    cases hi
    rw [hK, hs.1] at hroot
    cases hroot
  · obtain ⟨r, h1, h2, h3⟩ := hs.2 _ hroot
    exact hc.unrevoked 0 i _ t hpos h0 hi hne ⟨r, h1, h2, h3.trans hK.symm⟩

theorem Spec.ShutOut.not_admissible {db : Db} {K : PublicKey} {now : Dur} {c : Certificate} (hs : Spec.ShutOut db K) :
    ¬ Spec.Admissible (db.snapshot now) K c := by
  intro hc
  have hlong := hc.linked.long
  have h := List.getElem?_eq_getElem (l := c.chain) (i := c.chain.length - 1) (by omega)
  have := hs.position hc h (hc.linked.target _ h)
  omega

/-- A key that is no root and has no certificates has weight 0, whatever the size of the database. -/
theorem weight_zero {db s : Db} {K : PublicKey} {now : Dur} {w : Nat} (hh : db.Healthy) (hK : db.rootFactor K = none)
    (hno : ∀ c, ¬ Spec.Admissible (db.snapshot now) K c) (h : TrustGraph.weight K now db = (.ok w, s)) : w = 0 := by
  have h1 := (TrustGraph.weight_transparent K now).ok h
  have hcs : db.certs K now = [] := List.eq_nil_iff_forall_not_mem.mpr fun c hc => hno c ((Db.mem_certs_iff hh K now c).mp hc)
  have h2 : TrustGraph.storage (Storage.getRootWeightFactor K) db.calm = (.ok (db.rootFactor K), db.calm) :=
    Search.storage_ok (Db.getRootWeightFactor_eq hh.calm (Db.calm_noFaults _) K)
  unfold TrustGraph.weight at h1
  rw [M.bind_run_ok h2, M.bind_run_ok (Db.getAllCerts_eq hh.calm (Db.calm_noFaults _) K now)] at h1
  rw [show db.calm.certs K now = [] from hcs, hK] at h1
  cases (Prod.ext_iff.mp h1).1
  rfl

theorem weightFrom_zero {db s : Db} {K issuer : PublicKey} {now : Dur} {w : Nat} (hh : db.Healthy)
    (hno : ∀ c, Spec.Admissible (db.snapshot now) K c → issuer ∉ c.keys) (h : TrustGraph.weightFrom K issuer now db = (.ok w, s)) : w = 0 := by
  have h1 := (TrustGraph.weightFrom_transparent K issuer now).ok h
  have h2 := Db.getAllCertsFrom_eq hh.calm (Db.calm_noFaults _) K issuer now
  have hcs : (db.certs K now).filter (fun c => c.chain.any (fun t => t.issuedFor == issuer)) = [] := by
    refine List.filter_eq_nil_iff.mpr fun c hc hany => ?_
    obtain ⟨t, ht, he⟩ := List.any_eq_true.mp hany
    exact hno c ((Db.mem_certs_iff hh K now c).mp hc) (List.mem_map.mpr ⟨t, ht, by simpa using he⟩)
  unfold TrustGraph.weightFrom at h1
  rw [M.bind_run_ok h2] at h1
  rw [show (db.calm.certs K now).filter _ = [] from hcs] at h1
  cases (Prod.ext_iff.mp h1).1
  rfl

theorem addLoop_keeps {P : Db → Prop} {now : Dur} (ts : List Trust) (k : PublicKey)
    (h : ∀ p ∈ (k :: ts.map (·.issuedFor)).zip ts, ∀ d, P d → P (TrustGraph.addTrust p.2 p.1 now d).2) {db : Db} (hP : P db) :
    P (TrustGraph.addLoop now k ts db).2 := by
  induction ts generalizing k db with
  | nil => exact hP
  | cons t ts ih =>
    unfold TrustGraph.addLoop
    rw [M.bind_run]
    have h1 := h (k, t) (by simp) db hP
    rcases h2 : TrustGraph.addTrust t k now db with ⟨_ | _ | _ | _, s⟩ <;> rw [h2] at h1
    case' err | panic | diverge => exact h1
    exact ih t.issuedFor (fun p hp => h p (by
      rw [List.map_cons, List.zip_cons_cons]
      exact List.mem_cons_of_mem _ hp)) h1

/-- No trusts are stored of keys that are no roots and have no certificates, as long as this stays so. -/
theorem stored_of_weightless {ok : Op → Prop} {S : PublicKey → Prop} {db db' : Db} (hr : Reachable db)
    (hsub : ∀ c now t k, ok (.add c now) → TrustRelation.auth ⟨t, k⟩ ∈ (Op.add c now).offers → ok (.addTrust t k now))
    (hz : ∀ d, Later ok db d → ∀ K, S K → d.rootFactor K = none ∧ ∀ now c, ¬ Spec.Admissible (d.snapshot now) K c)
    (hl : Later ok db db') : ∀ t K, S K → db'.Stored (.auth ⟨t, K⟩) → db.Stored (.auth ⟨t, K⟩) := by
  have hadd : ∀ {d : Db} (t : Trust) (k : PublicKey) (now : Dur), Later ok db d →
      (∀ t K, S K → d.Stored (.auth ⟨t, K⟩) → db.Stored (.auth ⟨t, K⟩)) →
      ∀ x K, S K → (TrustGraph.addTrust t k now d).2.Stored (.auth ⟨x, K⟩) → db.Stored (.auth ⟨x, K⟩) := by
    intro d t k now hld hd x K hK hx
    rcases addTrust_stores hx with h | ⟨e, w, s, h1, h2⟩
    · exact hd x K hK h
    · cases e
      obtain ⟨hroot, hno⟩ := hz d hld _ hK
      have := weight_zero (hld.reachable hr).healthy hroot (hno now) h1
      rw [this] at h2
      simp at h2
  induction hl with
  | refl => exact fun _ _ _ h => h
  | weather fs _ ih => exact ih
  | @step d op hop hld ih =>
    by_cases hauth : ∃ a, TrustRelation.auth a ∈ op.offers
    · cases op with
      | addTrust t k now => exact hadd t k now hld ih
      | add c now =>
        rcases hch : c.chain with _ | ⟨t, ts⟩
        · obtain ⟨a, ha⟩ := hauth
          simp [Op.offers, hch] at ha
        · show ∀ x K, S K → (TrustGraph.add c now d).2.Stored _ → _
          unfold TrustGraph.add
          rw [hch]
          refine (addLoop_keeps (P := fun d => Later ok db d ∧ ∀ t K, S K → d.Stored (.auth ⟨t, K⟩) → db.Stored (.auth ⟨t, K⟩))
            (t :: ts) t.issuedFor ?_ ⟨hld, ih⟩).2
          rintro ⟨k', t'⟩ hp d' ⟨h1, h2⟩
          refine ⟨.step (.addTrust t' k' now) (hsub c now t' k' hop ?_) h1, hadd t' k' now h1 h2⟩
          show _ ∈ List.map _ _
          rw [hch, Spec.issuers_zip]
          exact List.mem_map.mpr ⟨_, hp, rfl⟩
      | revoke r =>
        obtain ⟨a, ha⟩ := hauth
        simp [Op.offers] at ha
      | _ =>
        obtain ⟨a, ha⟩ := hauth
        simp [Op.offers] at ha
    · have hq : Quiet (fun x y : Db => (∀ t K, S K → x.Stored (.auth ⟨t, K⟩) → db.Stored (.auth ⟨t, K⟩)) →
          ∀ t K, S K → y.Stored (.auth ⟨t, K⟩) → db.Stored (.auth ⟨t, K⟩)) :=
        ⟨fun _ h => h, fun _ _ _ h1 h2 h => h2 (h1 h), fun _ _ h => h⟩
      refine Op.run_steps hq op (fun now _ d' h t K hK ht => h t K hK ((Db.stored_collect now).mp ht).1) ?_ (fun _ _ _ _ h => h) d ih
      intro q hq' _ _ d' _ h t K hK ht
      rcases Db.stored_put.mp ht with e | ht
      · cases q with
        | auth a => exact absurd ⟨a, hq'⟩ hauth
        | revocation r => cases e
      · exact h t K hK ht.1

/-- A key that is shut out gets no further trusts stored. -/
theorem Spec.ShutOut.stored {db db' : Db} {K : PublicKey} (hr : Reachable db) (hs : Spec.ShutOut db K) (hl : Later (Spec.KeepsOut db K) db db') :
    ∀ t, db'.Stored (.auth ⟨t, K⟩) → db.Stored (.auth ⟨t, K⟩) := by
  refine fun t => stored_of_weightless (S := (· = K)) hr ?_ ?_ hl t K rfl
  · intro c now t k hop hm
    refine ⟨fun _ _ e => (nomatch e), ?_⟩
    intro a r ⟨ha, hv⟩
    rw [Op.offers, List.mem_singleton] at ha
    cases ha
    exact hop.2 _ r ⟨hm, hv⟩
  · rintro d hld _ rfl
    have hsd := hs.later hr hld
    exact ⟨hsd.1, fun now c => hsd.not_admissible⟩

/-- **C113** at full strength: a key that is no root and that every root has revoked has no certificates and no weight, nothing it signs is taken, and it
stands on nobody's certificate, so it confers weight on nobody; whatever calls and failures follow, as long as no other root is set and no root signs a newer
trust in the key. -/
def C113_statement : Prop :=
  ∀ (db db' : Db) (K : PublicKey), Reachable db → Spec.ShutOut db K → Later (Spec.KeepsOut db K) db db' →
    ∀ (now : Dur),
      (∀ cs s, TrustGraph.getAllCerts K now db' = (.ok cs, s) → cs = []) ∧
      (∀ w s, TrustGraph.weight K now db' = (.ok w, s) → w = 0) ∧
      (∀ t w s, TrustGraph.addTrust t K now db' = (.ok w, s) → w = 0 ∧ ∀ q, s.Stored q → db'.Stored q) ∧
      (∀ X cs s, TrustGraph.getAllCerts X now db' = (.ok cs, s) → ∀ c ∈ cs, K ∉ c.keys) ∧
      (∀ X w s, TrustGraph.weightFrom X K now db' = (.ok w, s) → w = 0)

/-- **C113**, what holds: all of it, except that the key may still stand on a certificate immediately before the last key, if it trusted the last key before it
was shut out, until this trust expires; `C113_fails` (F2). -/
theorem C113_shut_out_partial {db db' : Db} {K : PublicKey} (hr : Reachable db) (hs : Spec.ShutOut db K) (hl : Later (Spec.KeepsOut db K) db db')
    (now : Dur) :
    (∀ cs s, TrustGraph.getAllCerts K now db' = (.ok cs, s) → cs = []) ∧
    (∀ w s, TrustGraph.weight K now db' = (.ok w, s) → w = 0) ∧
    (∀ t w s, TrustGraph.addTrust t K now db' = (.ok w, s) → w = 0 ∧ ∀ q, s.Stored q → db'.Stored q) ∧
    (∀ X cs s, TrustGraph.getAllCerts X now db' = (.ok cs, s) → ∀ c ∈ cs, K ∈ c.keys →
      c.keys.idxOf K + 2 = c.keys.length ∧ ∃ t, c.chain.getLast? = some t ∧ t.issuedFor = X ∧ db.Stored (.auth ⟨t, K⟩) ∧ Spec.Live t now) ∧
    (∀ X w s, TrustGraph.weightFrom X K now db' = (.ok w, s) → (∀ t, t.issuedFor = X → db.Stored (.auth ⟨t, K⟩) → ¬ Spec.Live t now) → w = 0) := by
  have hs' := hs.later hr hl
  have hh := (hl.reachable hr).healthy
  have hno : ∀ c, ¬ Spec.Admissible (db'.snapshot now) K c := fun c => hs'.not_admissible
  have hw : ∀ w s, TrustGraph.weight K now db' = (.ok w, s) → w = 0 := fun w s h => weight_zero hh hs'.1 hno h
  have hlast : ∀ X c, Spec.Admissible (db'.snapshot now) X c → K ∈ c.keys →
      c.keys.idxOf K + 2 = c.keys.length ∧ ∃ t, c.chain.getLast? = some t ∧ t.issuedFor = X ∧ db.Stored (.auth ⟨t, K⟩) ∧ Spec.Live t now := by
    intro X c hc hK
    have hlt := List.idxOf_lt_length_of_mem hK
    have hi := List.getElem?_eq_getElem hlt
    rw [List.getElem_idxOf hlt] at hi
    obtain ⟨t, ht, e⟩ := Spec.keys_getElem?.mp hi
    have hpos := hs'.position hc ht e
    have hlen : c.keys.length = c.chain.length := List.length_map _
    refine ⟨hpos.trans hlen.symm, ?_⟩
    have hl1 : c.chain[List.idxOf K c.keys + 1]? = some (c.chain[List.idxOf K c.keys + 1]'(by omega)) := List.getElem?_eq_getElem (by omega)
    obtain ⟨h1, h2⟩ := hc.linked.link _ _ _ ht hl1
    rw [e] at h1
    have e1 : List.idxOf K c.keys + 1 = c.chain.length - 1 := by omega
    refine ⟨_, ?_, hc.linked.target _ (e1 ▸ hl1), hs.stored hr hl _ h1, h2⟩
    rw [List.getLast?_eq_getElem?, ← e1]
    exact hl1
  refine ⟨?_, hw, ?_, ?_, ?_⟩
  · intro cs s h
    exact List.eq_nil_iff_forall_not_mem.mpr fun c hc => hno c (((C02_complete_exactly_once hh h).2 c).mp hc)
  · intro t w s h
    obtain ⟨-, wi, s1, h1, h2, -⟩ := C20_returned_weight h
    have := hw _ _ h1
    subst this
    obtain rfl : w = 0 := by rw [h2]; split <;> rfl
    exact ⟨rfl, (C19_zero_stores_nothing h).1⟩
  · intro X cs s h c hc hK
    exact hlast X c (((C02_complete_exactly_once hh h).2 c).mp hc) hK
  · intro X w s h hexp
    refine weightFrom_zero hh (fun c hc hK => ?_) h
    obtain ⟨-, t, -, h2, h3, h4⟩ := hlast X c hc hK
    exact hexp t h2 h3 h4

end TG
