/-
Property C92: what the example program prints.
-/
import Verif.Props.Example
import Verif.Props.Subnetwork

namespace TG
open TG.Service
variable [LawfulEnv]

theorem Spec.edge_append {ts : List Trust} {x : Trust} (hl : ts ≠ []) {k : PublicKey} {t : Trust} (h : Spec.Edge (ts ++ [x]) k t) :
    Spec.Edge ts k t ∨ (t = x ∧ ∃ a, ts[ts.length - 1]? = some a ∧ a.issuedFor = k) := by
  obtain ⟨i, hk, ht⟩ := h
  have hpos : 0 < ts.length := List.length_pos_iff.mpr hl
  have hi := (List.getElem?_eq_some_iff.mp ht).1
  rw [List.length_append, List.length_singleton] at hi
  obtain ⟨a, ha, ea⟩ := Spec.issuers_get hk
  rw [List.getElem?_append_left (by omega)] at ha
  rcases Nat.lt_or_ge i ts.length with h' | h'
  · left
    rw [List.getElem?_append_left h'] at ht
    refine ⟨i, ?_, ht⟩
    rcases i with _ | i
    · rw [ht] at ha
      cases ha
      rw [Spec.edge_zero ht, ea]
    · rw [Nat.add_sub_cancel] at ha
      rw [Spec.issuers_succ ha h', ea]
  · right
    obtain rfl : i = ts.length := by omega
    rw [List.getElem?_append_right (Nat.le_refl _), Nat.sub_self] at ht
    exact ⟨(Option.some.inj ht).symm, a, ha, ea⟩

/-- What the example needs: a certificate `c` of the client, worth at least 2, that it can extend by trusts in the nodes; nothing between the client and the
nodes is as new as the time `t`. -/
structure Spec.Ready (db : Db) (client : PublicKey) (nodes : List PublicKey) (t : UInt64) (c : Certificate) : Prop where
  reachable : Reachable db
  noFaults : db.NoFaults
  small : db.relations.length + 100 < 2 ^ 32
  extensible : ∀ x ∈ nodes, Spec.Extensible db client x (.ofSecs t) c
  worth : 2 ≤ db.certWeight c
  old : ∀ x ∈ nodes, ∀ q, db.Stored q → q.issuedBy = client → q.issuedFor = x → q.issuedAt.total < (Dur.ofSecs t).total
  notClient : ∀ x ∈ nodes, client ≠ x

/-- The database while the example runs: `rev` are the nodes revoked by the client, `tr` those trusted until `far`; what is stored between the client and the
node `x` is dated before `last x`. -/
structure Stage (db : Db) (client : PublicKey) (nodes : List PublicKey) (c : Certificate) (far : UInt64) (d : Db) (n : Nat) (last : PublicKey → Nat)
    (rev tr : List PublicKey) : Prop where
  reachable : Reachable d
  noFaults : d.NoFaults
  roots : d.roots = db.roots
  length : d.relations.length ≤ db.relations.length + n
  chain : ∀ k t, Spec.Edge c.chain k t → d.Stored (.auth ⟨t, k⟩)
  revs : ∀ r, d.Stored (.revocation r) → db.Stored (.revocation r) ∨ (r.revokedBy = client ∧ r.pk ∈ nodes)
  old : ∀ x ∈ nodes, ∀ q, d.Stored q → q.issuedBy = client → q.issuedFor = x → q.issuedAt.total < last x
  rev : ∀ x ∈ rev, ∃ r, d.Stored (.revocation r) ∧ r.revokedBy = client ∧ r.pk = x
  tr : ∀ x ∈ tr, ∃ t, d.Stored (.auth ⟨t, client⟩) ∧ t.issuedFor = x ∧ t.expiresAt = .ofSecs far

namespace Stage
variable {db : Db} {client : PublicKey} {nodes : List PublicKey} {c : Certificate} {far t0 : UInt64} {d : Db} {n : Nat} {last : PublicKey → Nat}
  {rev tr : List PublicKey}

theorem start (h : Spec.Ready db client nodes t0 c) {x : PublicKey} (hx : x ∈ nodes) :
    Stage db client nodes c far db 0 (fun _ => (Dur.ofSecs t0).total) [] [] where
  reachable := h.reachable
  noFaults := h.noFaults
  roots := rfl
  length := Nat.le_refl _
  chain k t he := by
    have hl := (h.extensible x hx).admissible.linked
    obtain ⟨i, hk, ht⟩ := he
    rcases i with _ | i
    · rw [Spec.edge_zero ht] at hk
      cases hk
      exact (hl.root t ht).2.1
    · have hi := (List.getElem?_eq_some_iff.mp ht).1
      have ha : c.chain[i]? = some c.chain[i] := List.getElem?_eq_getElem (by omega)
      rw [Spec.issuers_succ ha hi] at hk
      cases hk
      exact (hl.link i _ _ ha ht).1
  revs r hr := .inl hr
  old := h.old
  rev x hx := nomatch hx
  tr x hx := nomatch hx

theorem healthy (h : Stage db client nodes c far d n last rev tr) : d.Healthy := h.reachable.healthy

theorem rootFactor (h : Stage db client nodes c far d n last rev tr) (k : PublicKey) : d.rootFactor k = db.rootFactor k :=
  Db.rootFactor_congr h.roots k

/-- The certificate of the client stays, and can be extended. -/
theorem extensible (h : Stage db client nodes c far d n last rev tr) (h0 : Spec.Ready db client nodes t0 c) {now : Dur}
    (hlive : ∀ t ∈ c.chain, Spec.Live t now) {x : PublicKey} (hx : x ∈ nodes) : Spec.Extensible d client x now c := by
  have e0 := h0.extensible x hx
  have hlong := e0.admissible.linked.long
  have hlast : c.chain[c.chain.length - 1]? = some c.chain[c.chain.length - 1] := List.getElem?_eq_getElem (by omega)
  have hun : Spec.Unrevoked (d.snapshot now) c.chain := by
    rintro i j a b hij ha hb ⟨r, hr, hb', hp⟩
    rcases h.revs r hr with hr | ⟨-, hn⟩
    · exact e0.unrevoked i j a b hij ha hb ⟨r, hr, hb', hp⟩
    · exact (h0.extensible _ hn).fresh b (List.mem_of_getElem? hb) hp.symm
  refine ⟨?_, e0.fresh, hun, ?_⟩
  · have := admissible_of_edges (d := d) (c := c) (now := now) h.healthy hlong (fun t ht => ?_) h.chain hlive e0.admissible.noRevisit
      (fun i j a b hij ha hb hr => hun i j a b (by omega) ha hb hr) hlast
    · rwa [e0.admissible.linked.target _ hlast] at this
    · rw [h.rootFactor]
      exact Db.rootFactor_isSome.mpr (e0.admissible.linked.root t ht).1
  · rintro t ht hne ⟨r, hr, hb, hp⟩
    rcases h.revs r hr with hr | ⟨hc, -⟩
    · exact e0.permits t ht hne ⟨r, hr, hb, hp⟩
    · exact hne (hb.symm.trans hc)

/-- Trusted nodes. -/
theorem trusted (h : Stage db client nodes c far d n last rev tr) (h0 : Spec.Ready db client nodes t0 c) {now : UInt64}
    (hlive : ∀ t ∈ c.chain, Spec.Live t (.ofSecs now)) (hfar : now < far) (hfar63 : far.toNat < 2 ^ 63) {x : PublicKey} (hx : x ∈ nodes) (htr : x ∈ tr) :
    Spec.TrustedBy (d.snapshot (.ofSecs now)) client x := by
  obtain ⟨t, hs, rfl, he⟩ := h.tr x htr
  have e := h.extensible h0 hlive hx
  have hlong := e.admissible.linked.long
  have hlast : c.chain[c.chain.length - 1]? = some c.chain[c.chain.length - 1] := List.getElem?_eq_getElem (by omega)
  have htarget := e.admissible.linked.target _ hlast
  have hnil : c.chain ≠ [] := by
    intro h'; rw [h'] at hlong; simp at hlong
  have hltt : Spec.Live t (.ofSecs now) := by
    have := UInt64.lt_iff_toNat_lt.mp hfar
    exact (Spec.live_iff (show now.toNat < 2 ^ 63 by omega) (by rw [he]; exact hfar63)).mpr (by rw [he]; exact this)
  have hcases : ∀ {i : Nat} {a : Trust}, (c.chain ++ [t])[i]? = some a → c.chain[i]? = some a ∨ (i = c.chain.length ∧ a = t) := by
    intro i a ha
    have hi := (List.getElem?_eq_some_iff.mp ha).1
    rw [List.length_append, List.length_singleton] at hi
    rcases Nat.lt_or_ge i c.chain.length with h' | h'
    · rw [List.getElem?_append_left h'] at ha; exact .inl ha
    · obtain rfl : i = c.chain.length := by omega
      rw [List.getElem?_append_right (Nat.le_refl _), Nat.sub_self] at ha
      exact .inr ⟨rfl, (Option.some.inj ha).symm⟩
  have hadm := admissible_of_edges (d := d) (c := ⟨c.chain ++ [t]⟩) (now := .ofSecs now) (last := t) h.healthy
    (by show 2 ≤ (c.chain ++ [t]).length; rw [List.length_append, List.length_singleton]; omega)
    (fun a ha => by
      rcases hcases ha with ha | ⟨h', -⟩
      · exact Db.rootFactor_isSome.mpr (e.admissible.linked.root a ha).1
      · omega)
    (fun k a ha => by
      rcases Spec.edge_append hnil ha with ha | ⟨rfl, b, hb, rfl⟩
      · exact h.chain k a ha
      · rw [hlast] at hb
        cases hb
        rw [htarget]
        exact hs)
    (fun a ha => by
      rcases List.mem_append.mp ha with ha | ha
      · exact hlive a ha
      · rw [List.mem_singleton] at ha
        exact ha ▸ hltt)
    (fun i j a b hij ha hb he' => by
      rcases hcases hb with hb | ⟨rfl, rfl⟩
      · rcases hcases ha with ha | ⟨rfl, -⟩
        · exact e.admissible.noRevisit i j a b hij ha hb he'
        · have := (List.getElem?_eq_some_iff.mp hb).1
          omega
      · rcases hcases ha with ha | ⟨rfl, -⟩
        · exact absurd he' (e.fresh a (List.mem_of_getElem? ha))
        · omega)
    (fun i j a b hij ha hb hr => by
      have ha' : c.chain[i]? = some a := by
        rcases hcases ha with ha | ⟨rfl, -⟩
        · exact ha
        · rcases hcases hb with hb | ⟨rfl, -⟩
          · have := (List.getElem?_eq_some_iff.mp hb).1
            omega
          · omega
      rcases hcases hb with hb | ⟨rfl, rfl⟩
      · exact e.unrevoked i j a b (by omega) ha' hb hr
      · by_cases hc : a.issuedFor = client
        · obtain ⟨r, hr, hb', hp'⟩ := hr
          cases h.healthy.stored_unique hr hs hp' (hb'.trans hc)
        · exact e.permits a (List.mem_of_getElem? ha') hc hr)
    (by show (c.chain ++ [t])[(c.chain ++ [t]).length - 1]? = _; simp)
  exact ⟨_, hadm, _, List.mem_append_left _ (List.mem_of_getElem? hlast), htarget⟩

/-- The liveness needed at the time `now`. -/
structure Alive (c : Certificate) (far now : UInt64) : Prop where
  chain : ∀ t ∈ c.chain, Spec.Live t (.ofSecs now)
  before : now < far
  far63 : far.toNat < 2 ^ 63

theorem Alive.live {now : UInt64} (h : Alive c far now) {t : Trust} (ht : t.expiresAt = .ofSecs far) : Spec.Live t (.ofSecs now) := by
  have := UInt64.lt_iff_toNat_lt.mp h.before
  have := h.far63
  exact (Spec.live_iff (show now.toNat < 2 ^ 63 by omega) (by rw [ht]; exact this)).mpr (by rw [ht]; exact h.before)

theorem Alive.mono {now now' : UInt64} (h : Alive c far now') (hle : now ≤ now') : Alive c far now := by
  have hle' := UInt64.le_iff_toNat_le.mp hle
  have h1 := UInt64.lt_iff_toNat_lt.mp h.before
  have h2 := h.far63
  refine ⟨fun t ht => ?_, UInt64.lt_iff_toNat_lt.mpr (by omega), h2⟩
  have := h.chain t ht
  change asI64 now' < _ at this
  show asI64 now < _
  rw [asI64_of_lt (show now'.toNat < 2 ^ 63 by omega)] at this
  rw [asI64_of_lt (show now.toNat < 2 ^ 63 by omega)]
  omega

/-- A query deletes what has expired. -/
theorem collect (h : Stage db client nodes c far d n last rev tr) {now : UInt64} (ha : Alive c far now) :
    Stage db client nodes c far (d.collect (.ofSecs now)) n last rev tr where
  reachable := by
    have := h.reachable.step (.getAllCerts client (.ofSecs now))
    rwa [show Op.run (.getAllCerts client (.ofSecs now)) d = (TrustGraph.getAllCerts client (.ofSecs now) d).2 from rfl,
      Db.getAllCerts_eq h.healthy h.noFaults] at this
  noFaults := h.noFaults.collect _
  roots := h.roots
  length := Nat.le_trans (Db.collect_length_le _ _) h.length
  chain k t he := by
    refine (Db.stored_collect _).mpr ⟨h.chain k t he, ?_⟩
    rintro a e
    cases e
    obtain ⟨i, -, ht⟩ := he
    exact ha.chain t (List.mem_of_getElem? ht)
  revs r hr := h.revs r ((Db.stored_collect _).mp hr).1
  old x hx q hq := h.old x hx q ((Db.stored_collect _).mp hq).1
  rev x hx := by
    obtain ⟨r, hr, h'⟩ := h.rev x hx
    exact ⟨r, (Db.stored_collect _).mpr ⟨hr, fun a e => by cases e⟩, h'⟩
  tr x hx := by
    obtain ⟨t, ht, h1, h2⟩ := h.tr x hx
    refine ⟨t, (Db.stored_collect _).mpr ⟨ht, ?_⟩, h1, h2⟩
    rintro a e
    cases e
    exact ha.live h2

theorem weaken (h : Stage db client nodes c far d n last rev tr) {last' : PublicKey → Nat} {rev' tr' : List PublicKey}
    (h1 : ∀ x ∈ nodes, last x ≤ last' x) (h2 : rev' ⊆ rev) (h3 : tr' ⊆ tr) : Stage db client nodes c far d n last' rev' tr' :=
  { h with
    old := fun x hx q hq h1' h2' => Nat.lt_of_lt_of_le (h.old x hx q hq h1' h2') (h1 x hx)
    rev := fun x hx => h.rev x (h2 hx)
    tr := fun x hx => h.tr x (h3 hx) }

/-- What an update does to what is stored. -/
theorem stored (h : Stage db client nodes c far d n last rev tr) {x : PublicKey} (hx : x ∈ nodes) {e : TrustRelation} (hwhole : e.Whole)
    (hby : e.issuedBy = client) (hfor : e.issuedFor = x) (hat : last x ≤ e.issuedAt.total) (q : TrustRelation) :
    (d.update e).Stored q ↔ q = e ∨ (d.Stored q ∧ ¬ q.SamePair e) :=
  Db.stored_update_fresh h.healthy hwhole fun r hr hp => .inr (Nat.lt_of_lt_of_le
    (h.old x hx r hr (hp.2.trans hby) (hp.1.trans hfor)) hat)

theorem put (h : Stage db client nodes c far d n last rev tr) (h0 : Spec.Ready db client nodes t0 c) {x : PublicKey} (hx : x ∈ nodes)
    {e : TrustRelation} (hwhole : e.Whole)
    (hby : e.issuedBy = client) (hfor : e.issuedFor = x) (hat : last x ≤ e.issuedAt.total) (hreach : Reachable (d.update e))
    {last' : PublicKey → Nat} {rev' tr' : List PublicKey}
    (hlast : e.issuedAt.total < last' x) (hlast' : ∀ y ∈ nodes, y ≠ x → last y ≤ last' y)
    (hrev : ∀ y ∈ rev', (y = x ∧ ∃ r, e = .revocation r) ∨ (y ≠ x ∧ y ∈ rev))
    (htr : ∀ y ∈ tr', (y = x ∧ ∃ t, e = .auth ⟨t, client⟩ ∧ t.expiresAt = .ofSecs far) ∨ (y ≠ x ∧ y ∈ tr)) :
    Stage db client nodes c far (d.update e) (n + 1) last' rev' tr' := by
  have hst := h.stored hx hwhole hby hfor hat
  refine ⟨hreach, h.noFaults.update _, (Db.update_roots _).trans h.roots, ?_, fun k t he => ?_, fun r hr => ?_, fun y hy q hq h1 h2 => ?_,
    fun y hy => ?_, fun y hy => ?_⟩
  · have := h.length
    have := Db.update_length_le (db := d) e
    omega
  · refine (hst _).mpr (.inr ⟨h.chain k t he, fun hp => ?_⟩)
    obtain ⟨i, -, ht⟩ := he
    exact (h0.extensible x hx).fresh t (List.mem_of_getElem? ht) (hp.1.trans hfor)
  · rcases (hst _).mp hr with rfl | ⟨hr, -⟩
    · exact .inr ⟨hby, show (TrustRelation.revocation r).issuedFor ∈ nodes from hfor.symm ▸ hx⟩
    · exact h.revs r hr
  · rcases (hst _).mp hq with rfl | ⟨hq, hp⟩
    · rw [← h2, hfor]; exact hlast
    · by_cases hyx : y = x
      · subst hyx
        exact absurd ⟨h2.trans hfor.symm, h1.trans hby.symm⟩ hp
      · exact Nat.lt_of_lt_of_le (h.old y hy q hq h1 h2) (hlast' y hy hyx)
  · rcases hrev y hy with ⟨rfl, r, rfl⟩ | ⟨hne, hy⟩
    · exact ⟨r, (hst _).mpr (.inl rfl), hby, hfor⟩
    · obtain ⟨r, hr, h1, h2⟩ := h.rev y hy
      exact ⟨r, (hst _).mpr (.inr ⟨hr, fun hp => hne (h2.symm.trans (hp.1.trans hfor))⟩), h1, h2⟩
  · rcases htr y hy with ⟨rfl, t, rfl, ht⟩ | ⟨hne, hy⟩
    · exact ⟨t, (hst _).mpr (.inl rfl), hfor, ht⟩
    · obtain ⟨t, hs, h1, h2⟩ := h.tr y hy
      exact ⟨t, (hst _).mpr (.inr ⟨hs, fun hp => hne (h1.symm.trans (hp.1.trans hfor))⟩), h1, h2⟩

end Stage

/-- The date after which a relation made at the time `t` is out of date. -/
def after (last : PublicKey → Nat) (x : PublicKey) (t : UInt64) : PublicKey → Nat := fun y => if y = x then (Dur.ofSecs t).total + 1 else last y

section Steps
variable {db : Db} {kp : KeyPair} {nodes : List PublicKey} {c : Certificate} {far t0 : UInt64} {d : Db} {n : Nat} {last : PublicKey → Nat}
  {rev tr : List PublicKey} {relay : UInt64 → Node} {sig : SigService} {o : List Tetraplet}

/-- The client revokes a node. -/
theorem Stage.revoke (hw : Env.wasm = true) (hnow : ∀ t, (relay t).now = t) (hs : Spec.SignsWith sig kp)
    (h : Stage db kp.pub nodes c far d n last rev tr) (h0 : Spec.Ready db kp.pub nodes t0 c) {x : PublicKey} (hx : x ∈ nodes) {t t' : UInt64}
    (htt : t ≤ t') (hold : last x ≤ (Dur.ofSecs t).total) :
    ∃ d', Aqua.revoke (relay t) d sig (relay t') o kp.pub.toPeerId.toBase58 x.toPeerId.toBase58 d = (.ok none, d') ∧
      Stage db kp.pub nodes c far d' (n + 1) (after last x t) (x :: rev) (tr.filter (fun y => decide (y ≠ x))) := by
  have hp := C60_wasm_keys hw
  obtain ⟨r, h1, h2, h3, hv, -, h5⟩ := C81_revoke (relay t) (relay t') d d sig kp x o (hp _) (hp _) hs
  have h5 := h5 (by rw [hnow, hnow]; exact htt)
  rw [hnow] at h3
  rw [Db.revoke_eq h.healthy h.noFaults hv] at h5
  have hreach : Reachable (d.update (.revocation r)) := by
    have := h.reachable.step (.revoke r)
    rwa [show Op.run (.revoke r) d = (TrustGraph.revoke r d).2 from rfl, Db.revoke_eq h.healthy h.noFaults hv] at this
  have hwhole : (TrustRelation.revocation r).Whole := by
    show r.revokedAt.Whole
    rw [h3]; rfl
  refine ⟨_, h5, h.put h0 hx hwhole h2 h1 (by show _ ≤ r.revokedAt.total; rw [h3]; exact hold) hreach ?_ ?_ ?_ ?_⟩
  · show r.revokedAt.total < after last x t x
    rw [h3]; unfold after; rw [if_pos rfl]; exact Nat.lt_succ_self _
  · intro y _ hne
    unfold after; rw [if_neg hne]
  · intro y hy
    by_cases hyx : y = x
    · exact .inl ⟨hyx, _, rfl⟩
    · exact .inr ⟨hyx, (List.mem_cons.mp hy).resolve_left hyx⟩
  · intro y hy
    obtain ⟨h1, h2⟩ := List.mem_filter.mp hy
    exact .inr ⟨of_decide_eq_true h2, h1⟩

/-- The client trusts a node. -/
theorem Stage.trust (hw : Env.wasm = true) (hnow : ∀ t, (relay t).now = t) (hs : Spec.SignsWith sig kp)
    (h : Stage db kp.pub nodes c far d n last rev tr) (h0 : Spec.Ready db kp.pub nodes t0 c) (hn : n ≤ 50) {x : PublicKey} (hx : x ∈ nodes)
    {t t' : UInt64} (htt : t ≤ t') (ha : Stage.Alive c far t') (hold : last x ≤ (Dur.ofSecs t).total) :
    ∃ d', Aqua.addTrust (relay t) d sig (relay t') o o kp.pub.toPeerId.toBase58 x.toPeerId.toBase58 far d = (.ok none, d') ∧
      Stage db kp.pub nodes c far d' (n + 1) (after last x t) (rev.filter (fun y => decide (y ≠ x))) (x :: tr) := by
  have hp := C60_wasm_keys hw
  obtain ⟨a, h1, h2, h3, h4, -, h5⟩ := C79_add_trust (relay t) (relay t') d d sig kp x o o far (hp _) (hp _) hs
  have h5 := h5 (by rw [hnow, hnow]; exact htt)
  rw [hnow] at h3 h5
  have hfar := UInt64.lt_iff_toNat_lt.mp ha.before
  have hv : a.verify kp.pub (.ofSecs t') = .ok () := (h4 _).mpr (by
    show t'.toNat * 1000000000 + 0 ≤ far.toNat * 1000000000 + 0
    omega)
  have hsmall := h0.small
  have hlen := h.length
  have hext := h.extensible h0 ha.chain hx
  obtain ⟨w, hww, hg⟩ := Db.weight_spec h.healthy h.noFaults (by omega) kp.pub (.ofSecs t')
  have hw2 : 2 ≤ w := by
    refine Nat.le_trans ?_ (hg.2 (Or.inr (Or.inr ⟨c, hext.admissible, rfl⟩)))
    rw [Db.certWeight_congr h.roots rfl]
    exact h0.worth
  have hne : kp.pub ≠ a.issuedFor := by rw [h1]; exact h0.notClient x hx
  have hadd := Db.addTrust_eq h.healthy h.noFaults hv hww
  rw [if_neg hne, if_neg (by omega)] at hadd
  have hwhole : (TrustRelation.auth ⟨a, kp.pub⟩).Whole := by
    show a.issuedAt.Whole ∧ a.expiresAt.Whole
    rw [h2, h3]
    exact ⟨rfl, rfl⟩
  have hreach : Reachable ((d.collect (.ofSecs t')).update (.auth ⟨a, kp.pub⟩)) := by
    have := h.reachable.step (.addTrust a kp.pub (.ofSecs t'))
    rwa [show Op.run (.addTrust a kp.pub (.ofSecs t')) d = (TrustGraph.addTrust a kp.pub (.ofSecs t') d).2 from rfl, hadd] at this
  rw [hadd] at h5
  refine ⟨_, h5, (h.collect ha).put h0 hx hwhole rfl h1 (by show _ ≤ a.issuedAt.total; rw [h3]; exact hold) hreach ?_ ?_ ?_ ?_⟩
  · show a.issuedAt.total < after last x t x
    rw [h3]; unfold after; rw [if_pos rfl]; exact Nat.lt_succ_self _
  · intro y _ hne
    unfold after; rw [if_neg hne]
  · intro y hy
    obtain ⟨h1, h2⟩ := List.mem_filter.mp hy
    exact .inr ⟨of_decide_eq_true h2, h1⟩
  · intro y hy
    by_cases hyx : y = x
    · exact .inl ⟨hyx, _, rfl, h2⟩
    · exact .inr ⟨hyx, (List.mem_cons.mp hy).resolve_left hyx⟩

/-- What the computation leaves behind. -/
theorem trustedComputation_state (hw : Env.wasm = true) {α : Type} {r : Node} {client x : PublicKey} (hc : r.init = client.toPeerId.toBase58)
    (compute : α) (hh : d.Healthy) (hf : d.NoFaults) :
    (Example.trustedComputation r o o x.toPeerId.toBase58 compute d).2 = d.collect (.ofSecs r.now) := by
  have hp := C60_wasm_keys hw
  have hq := (C77_queries r o o x client (hp _) (hp _) d).2.2
  unfold Spec.PassesOn at hq
  rw [Db.getAllCertsFrom_eq hh hf] at hq
  unfold Example.trustedComputation
  rw [hc, M.bind_run_ok hq]
  dsimp only
  rw [if_pos rfl]
  split <;> rfl

/-- The computation on a node. -/
theorem Stage.exec (hw : Env.wasm = true) {α : Type} (compute : α) (hnow : ∀ t, (relay t).now = t)
    (hinit : ∀ t, (relay t).init = kp.pub.toPeerId.toBase58)
    (h : Stage db kp.pub nodes c far d n last rev tr) (h0 : Spec.Ready db kp.pub nodes t0 c) {x : PublicKey} (hx : x ∈ nodes) {t : UInt64}
    (ha : Stage.Alive c far t) :
    Stage db kp.pub nodes c far (d.collect (.ofSecs t)) n last rev tr ∧
    (x ∈ rev → Example.execTrustedComputation relay o compute x.toPeerId.toBase58 t d
      = (.ok [.failed x.toPeerId.toBase58 (some .noCerts)], d.collect (.ofSecs t))) ∧
    (x ∈ tr → Example.execTrustedComputation relay o compute x.toPeerId.toBase58 t d
      = (.ok [.successful x.toPeerId.toBase58 compute], d.collect (.ofSecs t))) := by
  have hstate := trustedComputation_state (o := o) (x := x) hw (hinit t) compute h.healthy h.noFaults
  have hdec := C86_decides hw (relay t) o o kp.pub x (hinit t) compute h.reachable
  rw [hnow] at hstate hdec
  refine ⟨h.collect ha, fun hr => ?_, fun ht => ?_⟩
  · obtain ⟨r, hr, hb, hp⟩ := h.rev x hr
    have hno := Spec.not_trustedBy (h0.notClient x hx) (g := d.snapshot (.ofSecs t)) ⟨r, hr, hb, hp⟩
    have hres : (Example.trustedComputation (relay t) o o x.toPeerId.toBase58 compute d).1 = .ok (none, some .noCerts) := by
      rcases hdec with ⟨h', -⟩ | ⟨-, h'⟩ | ⟨h', -⟩
      · exact absurd h' hno
      · exact h'
      · exact absurd h.noFaults h'
    unfold Example.execTrustedComputation
    rw [M.bind_run_ok (Prod.ext hres hstate)]
    rfl
  · have hyes := h.trusted h0 ha.chain ha.before ha.far63 hx ht
    have hres : (Example.trustedComputation (relay t) o o x.toPeerId.toBase58 compute d).1 = .ok (some compute, none) := by
      rcases hdec with ⟨-, h'⟩ | ⟨h', -⟩ | ⟨h', -⟩
      · exact h'
      · exact absurd hyes h'
      · exact absurd h.noFaults h'
    unfold Example.execTrustedComputation
    rw [M.bind_run_ok (Prod.ext hres hstate)]
    rfl

end Steps

/-- The clock of the relay during the program: it does not go back, at least a second passes where the program waits, and the program takes no longer than the
new trusts last. -/
structure Spec.Clock (clock : Nat → UInt64) : Prop where
  mono : ∀ i, i < 21 → clock i ≤ clock (i + 1)
  wait : clock 6 < clock 7
  wait' : clock 16 < clock 17
  far : clock 21 < clock 0 + 9999999
  far63 : (clock 0 + 9999999).toNat < 2 ^ 63

/-- What example/README.md says the program prints. -/
def Spec.documented {α : Type} (a b c : Str) (compute : α) : List (Example.Line α) :=
  [.failed a (some .noCerts), .failed b (some .noCerts), .failed c (some .noCerts),
   .added b, .added c,
   .failed a (some .noCerts), .successful b compute, .successful c compute,
   .revoked b,
   .failed a (some .noCerts), .failed b (some .noCerts), .successful c compute]

/-- **C92.**  The example program prints what its README says, on every relay on which the client has a certificate as described by `Spec.Ready` that does not
expire during the program. -/
theorem C92_example_output (hw : Env.wasm = true) {α : Type} (compute : α) {relay : UInt64 → Node} {sig : SigService} {kp : KeyPair} {o : List Tetraplet}
    {clock : Nat → UInt64} {db : Db} {A B C : PublicKey} {c : Certificate} (hnow : ∀ t, (relay t).now = t)
    (hinit : ∀ t, (relay t).init = kp.pub.toPeerId.toBase58) (hs : Spec.SignsWith sig kp) (hclock : Spec.Clock clock)
    (hready : Spec.Ready db kp.pub [A, B, C] (clock 1) c) (hlive : ∀ t ∈ c.chain, Spec.Live t (.ofSecs (clock 21)))
    (hAB : A ≠ B) (hAC : A ≠ C) (hBC : B ≠ C) :
    (Example.main relay sig o kp.pub.toPeerId.toBase58 A.toPeerId.toBase58 B.toPeerId.toBase58 C.toPeerId.toBase58 compute clock db).1
      = .ok (Spec.documented A.toPeerId.toBase58 B.toPeerId.toBase58 C.toPeerId.toBase58 compute) := by
  have hm : ∀ j, ∀ i ≤ j, j ≤ 21 → clock i ≤ clock j := by
    intro j
    induction j with
    | zero => intro i hi _; obtain rfl : i = 0 := by omega
              exact UInt64.le_refl _
    | succ j ih =>
      intro i hi hj
      rcases Nat.lt_or_ge i (j + 1) with h' | h'
      · exact UInt64.le_trans (ih i (by omega) (by omega)) (hclock.mono j (by omega))
      · obtain rfl : i = j + 1 := by omega
        exact UInt64.le_refl _
  have hmt : ∀ i j, i ≤ j → j ≤ 21 → (Dur.ofSecs (clock i)).total ≤ (Dur.ofSecs (clock j)).total := by
    intro i j hij hj
    have := UInt64.le_iff_toNat_le.mp (hm j i hij hj)
    show (clock i).toNat * 1000000000 + 0 ≤ (clock j).toNat * 1000000000 + 0
    omega
  have hlt : ∀ i k j, i ≤ k → k + 1 ≤ j → j ≤ 21 → clock k < clock (k + 1) → (Dur.ofSecs (clock i)).total + 1 ≤ (Dur.ofSecs (clock j)).total := by
    intro i k j hik hkj hj hk
    have h1 := UInt64.le_iff_toNat_le.mp (hm k i hik (by omega))
    have h2 := UInt64.le_iff_toNat_le.mp (hm j (k + 1) hkj hj)
    have h3 := UInt64.lt_iff_toNat_lt.mp hk
    have e : ∀ t : UInt64, (Dur.ofSecs t).total = t.toNat * 1000000000 + 0 := fun _ => rfl
    rw [e, e]
    omega
  have ha : ∀ i ≤ 21, Stage.Alive c (clock 0 + 9999999) (clock i) := fun i hi =>
    Stage.Alive.mono ⟨hlive, hclock.far, hclock.far63⟩ (hm 21 i hi (Nat.le_refl _))
  have mA : A ∈ [A, B, C] := by simp
  have mB : B ∈ [A, B, C] := by simp
  have mC : C ∈ [A, B, C] := by simp
  have s0 := Stage.start (far := clock 0 + 9999999) hready mA
  obtain ⟨d1, r1, s1⟩ := s0.revoke (o := o) hw hnow hs hready mA (hm 2 1 (by omega) (by omega)) (Nat.le_refl _)
  obtain ⟨d2, r2, s2⟩ := s1.revoke (o := o) hw hnow hs hready mB (hm 4 3 (by omega) (by omega)) (by
    unfold after; rw [if_neg hAB.symm]; exact hmt 1 3 (by omega) (by omega))
  obtain ⟨d3, r3, s3⟩ := s2.revoke (o := o) hw hnow hs hready mC (hm 6 5 (by omega) (by omega)) (by
    unfold after; rw [if_neg hBC.symm, if_neg hAC.symm]; exact hmt 1 5 (by omega) (by omega))
  have s3 := s3.weaken (last' := fun _ => (Dur.ofSecs (clock 7)).total) (rev' := [C, B, A]) (tr' := []) (by
    intro x _
    unfold after
    have h1 := hlt 1 6 7 (by omega) (by omega) (by omega) hclock.wait
    have h3 := hlt 3 6 7 (by omega) (by omega) (by omega) hclock.wait
    have h5 := hlt 5 6 7 (by omega) (by omega) (by omega) hclock.wait
    have h0 := hmt 1 7 (by omega) (by omega)
    dsimp only
    split_ifs <;> omega) (by simp) (by simp)
  obtain ⟨s4, r4, -⟩ := s3.exec (o := o) hw compute hnow hinit hready mA (ha 7 (by omega))
  obtain ⟨s5, r5, -⟩ := s4.exec (o := o) hw compute hnow hinit hready mB (ha 8 (by omega))
  obtain ⟨s6, r6, -⟩ := s5.exec (o := o) hw compute hnow hinit hready mC (ha 9 (by omega))
  obtain ⟨d7, r7, s7⟩ := s6.trust (o := o) hw hnow hs hready (by omega) mB (hm 11 10 (by omega) (by omega)) (ha 11 (by omega))
    (hmt 7 10 (by omega) (by omega))
  obtain ⟨d8, r8, s8⟩ := s7.trust (o := o) hw hnow hs hready (by omega) mC (hm 13 12 (by omega) (by omega)) (ha 13 (by omega)) (by
    unfold after; rw [if_neg hBC.symm]; exact hmt 7 12 (by omega) (by omega))
  have s8 := s8.weaken (last' := fun _ => (Dur.ofSecs (clock 17)).total) (rev' := [A]) (tr' := [C, B]) (by
    intro x _
    unfold after
    have h1 := hlt 10 16 17 (by omega) (by omega) (by omega) hclock.wait'
    have h3 := hlt 12 16 17 (by omega) (by omega) (by omega) hclock.wait'
    have h0 := hmt 7 17 (by omega) (by omega)
    dsimp only
    split_ifs <;> omega) (by simp [hAB, hAC]) (by simp)
  obtain ⟨s9, r9, -⟩ := s8.exec (o := o) hw compute hnow hinit hready mA (ha 14 (by omega))
  obtain ⟨s10, -, r10⟩ := s9.exec (o := o) hw compute hnow hinit hready mB (ha 15 (by omega))
  obtain ⟨s11, -, r11⟩ := s10.exec (o := o) hw compute hnow hinit hready mC (ha 16 (by omega))
  obtain ⟨d12, r12, s12⟩ := s11.revoke (o := o) hw hnow hs hready mB (hm 18 17 (by omega) (by omega)) (Nat.le_refl _)
  obtain ⟨s13, r13, -⟩ := s12.exec (o := o) hw compute hnow hinit hready mA (ha 19 (by omega))
  obtain ⟨s14, r14, -⟩ := s13.exec (o := o) hw compute hnow hinit hready mB (ha 20 (by omega))
  obtain ⟨s15, -, r15⟩ := s14.exec (o := o) hw compute hnow hinit hready mC (ha 21 (by omega))
  have quiet : ∀ {d d' : Db} {x : Str} {t t' : UInt64},
      Aqua.revoke (relay t) d sig (relay t') o kp.pub.toPeerId.toBase58 x d = (.ok none, d') →
      Example.revokeQuietly (α := α) relay sig o kp.pub.toPeerId.toBase58 x t t' d = (.ok [], d') := by
    intro d d' x t t' h
    unfold Example.revokeQuietly
    exact (M.bind_run_ok (s := d) (x := fun db => Aqua.revoke (relay t) db sig (relay t') o kp.pub.toPeerId.toBase58 x db) h).trans rfl
  have checked : ∀ {d d' : Db} {x : Str} {t t' : UInt64},
      Aqua.revoke (relay t) d sig (relay t') o kp.pub.toPeerId.toBase58 x d = (.ok none, d') →
      Example.revokeChecked (α := α) relay sig o kp.pub.toPeerId.toBase58 x t t' d = (.ok [.revoked x], d') := by
    intro d d' x t t' h
    unfold Example.revokeChecked
    exact (M.bind_run_ok (s := d) (x := fun db => Aqua.revoke (relay t) db sig (relay t') o kp.pub.toPeerId.toBase58 x db) h).trans rfl
  have added : ∀ {d d' : Db} {x : Str} {e t t' : UInt64},
      Aqua.addTrust (relay t) d sig (relay t') o o kp.pub.toPeerId.toBase58 x e d = (.ok none, d') →
      Example.addNewTrustChecked (α := α) relay sig o kp.pub.toPeerId.toBase58 x e t t' d = (.ok [.added x], d') := by
    intro d d' x e t t' h
    unfold Example.addNewTrustChecked
    exact (M.bind_run_ok (s := d) (x := fun db => Aqua.addTrust (relay t) db sig (relay t') o o kp.pub.toPeerId.toBase58 x e db) h).trans rfl
  unfold Example.main
  rw [M.bind_run_ok (quiet r1), M.bind_run_ok (quiet r2), M.bind_run_ok (quiet r3), M.bind_run_ok (r4 (by simp)), M.bind_run_ok (r5 (by simp)),
    M.bind_run_ok (r6 (by simp)), M.bind_run_ok (added r7), M.bind_run_ok (added r8), M.bind_run_ok (r9 (by simp)), M.bind_run_ok (r10 (by simp)),
    M.bind_run_ok (r11 (by simp)), M.bind_run_ok (checked r12), M.bind_run_ok (r13 (by simp)), M.bind_run_ok (r14 (by simp)),
    M.bind_run_ok (r15 (by simp [hBC.symm]))]
  rfl

end TG
