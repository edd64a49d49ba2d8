/-
Property C140: exactly which certificates an update takes away or adds.
-/
import Verif.Props.StatementsCalls
import Verif.Props.Effect
import Verif.Proofs.NoTrap

namespace TG
variable [Env]

/-- The trust `t`, given by `a`, is a step of the certificate. -/
def Spec.Uses (a : PublicKey) (t : Trust) (c : Certificate) : Prop :=
  (c.chain[0]? = some t ∧ t.issuedFor = a) ∨ ∃ (i : Nat) (x : Trust), c.chain[i]? = some x ∧ x.issuedFor = a ∧ c.chain[i + 1]? = some t

/-- A revocation of `b` by `a` invalidates the certificate: `a` comes before `b` on it.  If `b` is the issuer of the last trust, `a` must come immediately before `b`, so that
its trust in `b`, which the revocation replaces, was used (finding F2).  The first key has also given itself the first trust. -/
def Spec.Cut (a b : PublicKey) (c : Certificate) : Prop :=
  (a = b ∧ ∃ t, c.chain[0]? = some t ∧ t.issuedFor = a) ∨
  ∃ (i j : Nat) (x y : Trust), i < j ∧ c.chain[i]? = some x ∧ c.chain[j]? = some y ∧ x.issuedFor = a ∧ y.issuedFor = b ∧ (j + 2 ≠ c.chain.length ∨ j = i + 1)

/-- `a` comes before `b` on the certificate. -/
def Spec.Precedes (a b : PublicKey) (c : Certificate) : Prop :=
  ∃ (i j : Nat) (x y : Trust), i < j ∧ c.chain[i]? = some x ∧ c.chain[j]? = some y ∧ x.issuedFor = a ∧ y.issuedFor = b

namespace Change
open Spec

theorem revoked_iff {g g' : Snapshot} {a b X : PublicKey} {c : Certificate} (ht : ∀ k t, g'.trusted k t ↔ g.trusted k t ∧ ¬ (k = a ∧ t.issuedFor = b))
    (hv : ∀ x y, g'.revoked x y ↔ (x = a ∧ y = b) ∨ g.revoked x y) (hroot : ∀ k, g'.root k ↔ g.root k) :
    Admissible g' X c ↔ Admissible g X c ∧ ¬ Cut a b c := by
  constructor
  · intro h
    refine ⟨⟨⟨h.linked.long, fun t h0 => ⟨(hroot _).mp (h.linked.root t h0).1, ((ht _ _).mp (h.linked.root t h0).2).1⟩,
      fun i x y hx hy => ((ht _ _).mp (h.linked.link i x y hx hy)).1, h.linked.target⟩, h.noRevisit,
      fun i j x y hij hx hy hne hr => h.unrevoked i j x y hij hx hy hne ((hv _ _).mpr (.inr hr))⟩, ?_⟩
    rintro (⟨e, t, h0, e'⟩ | ⟨i, j, x, y, hij, hx, hy, ex, ey, hne | rfl⟩)
    · exact ((ht _ _).mp (h.linked.root t h0).2).2 ⟨e', e'.trans e⟩
    · exact h.unrevoked i j x y hij hx hy hne ((hv _ _).mpr (.inl ⟨ex, ey⟩))
    · exact ((ht _ _).mp (h.linked.link i x y hx hy)).2 ⟨ex, ey⟩
  · rintro ⟨h, hc⟩
    refine ⟨⟨h.linked.long, fun t h0 => ⟨(hroot _).mpr (h.linked.root t h0).1, (ht _ _).mpr ⟨(h.linked.root t h0).2, fun e => hc (.inl ⟨e.1.symm.trans e.2, t, h0, e.1⟩)⟩⟩,
      fun i x y hx hy => (ht _ _).mpr ⟨h.linked.link i x y hx hy, fun e => hc (.inr ⟨i, i + 1, x, y, Nat.lt_succ_self i, hx, hy, e.1, e.2, .inr rfl⟩)⟩, h.linked.target⟩, h.noRevisit, ?_⟩
    intro i j x y hij hx hy hne hr
    rcases (hv _ _).mp hr with e | hr
    · exact hc (.inr ⟨i, j, x, y, hij, hx, hy, e.1, e.2, .inl hne⟩)
    · exact h.unrevoked i j x y hij hx hy hne hr

theorem trusted_new {g g' : Snapshot} {a b X : PublicKey} {tn : Trust} {c : Certificate}
    (ht : ∀ k t, g'.trusted k t → (k = a ∧ t = tn) ∨ g.trusted k t)
    (hv : ∀ x y, g.revoked x y → g'.revoked x y ∨ (x = a ∧ y = b)) (hroot : ∀ k, g'.root k → g.root k) (h : Admissible g' X c) :
    Admissible g X c ∨ Uses a tn c ∨ (g.revoked a b ∧ Precedes a b c) := by
  by_cases h1 : Uses a tn c
  · exact .inr (.inl h1)
  by_cases h2 : g.revoked a b ∧ Precedes a b c
  · exact .inr (.inr h2)
  refine .inl ⟨⟨h.linked.long, fun t h0 => ⟨hroot _ (h.linked.root t h0).1, ?_⟩, fun i x y hx hy => ?_, h.linked.target⟩, h.noRevisit, ?_⟩
  · rcases ht _ _ (h.linked.root t h0).2 with ⟨e, rfl⟩ | h'
    · exact absurd (.inl ⟨h0, e⟩) h1
    · exact h'
  · rcases ht _ _ (h.linked.link i x y hx hy) with ⟨e, rfl⟩ | h'
    · exact absurd (.inr ⟨i, x, hx, e, hy⟩) h1
    · exact h'
  · intro i j x y hij hx hy hne hr
    rcases hv _ _ hr with h' | ⟨rfl, rfl⟩
    · exact h.unrevoked i j x y hij hx hy hne h'
    · exact h2 ⟨hr, i, j, x, y, hij, hx, hy, rfl, rfl⟩

theorem trusted_old {g g' : Snapshot} {a b X : PublicKey} {c : Certificate} (ht : ∀ k t, g.trusted k t → g'.trusted k t ∨ (k = a ∧ t.issuedFor = b))
    (hv : ∀ x y, g'.revoked x y → g.revoked x y) (hroot : ∀ k, g.root k → g'.root k) (h : Admissible g X c) :
    Admissible g' X c ∨ ∃ t, g.trusted a t ∧ t.issuedFor = b ∧ Uses a t c := by
  by_cases h1 : ∃ t, g.trusted a t ∧ t.issuedFor = b ∧ Uses a t c
  · exact .inr h1
  refine .inl ⟨⟨h.linked.long, fun t h0 => ⟨hroot _ (h.linked.root t h0).1, ?_⟩, fun i x y hx hy => ?_, h.linked.target⟩, h.noRevisit,
    fun i j x y hij hx hy hne hr => h.unrevoked i j x y hij hx hy hne (hv _ _ hr)⟩
  · have h' := (h.linked.root t h0).2
    rcases ht _ _ h' with h' | ⟨e, e'⟩
    · exact h'
    · exact absurd ⟨t, e ▸ h', e', .inl ⟨h0, e⟩⟩ h1
  · have h' := h.linked.link i x y hx hy
    rcases ht _ _ h' with h' | ⟨e, e'⟩
    · exact h'
    · exact absurd ⟨y, e ▸ h', e', .inr ⟨i, x, hx, e, hy⟩⟩ h1

end Change
open Change

/-- **C140** for `revoke`: a revocation takes away exactly the certificates that it cuts, if it is news; otherwise it changes no answer. -/
theorem C140_revoke {db db' : Db} {r : Revocation} (hr : Reachable db) (h : TrustGraph.revoke r db = (.ok (), db')) {X : PublicKey} {now : Dur} {cs cs' : List Certificate} {s s' : Db}
    (h1 : TrustGraph.getAllCerts X now db = (.ok cs, s)) (h2 : TrustGraph.getAllCerts X now db' = (.ok cs', s')) :
    (Spec.News db (.revocation r) → ∀ c, c ∈ cs' ↔ c ∈ cs ∧ ¬ Spec.Cut r.revokedBy r.pk c) ∧ (¬ Spec.News db (.revocation r) → cs' = cs) := by
  have hh := hr.healthy
  have hh' : db'.Healthy := by
    have := (hr.step (.revoke r)).healthy
    rwa [show Op.run (.revoke r) db = db' from congrArg Prod.snd h] at this
  have hd := revoke_ok_update hh h
  rw [getAllCerts_ok hh h1, getAllCerts_ok hh' h2]
  constructor
  · intro hn c
    rw [Db.mem_certs_iff hh, Db.mem_certs_iff hh']
    have hn' : db.calm.Newer (.revocation r) := (Spec.news_iff hh.calm).mpr hn
    have hst : ∀ q, db'.Stored q ↔ q = (TrustRelation.revocation r).trunc ∨ (db.Stored q ∧ ¬ (q.issuedFor = r.pk ∧ q.issuedBy = r.revokedBy)) := by
      intro q
      rw [← Db.stored_calm, hd, Db.update, if_pos hn', Db.stored_put]
      exact Iff.rfl
    refine revoked_iff (fun k t => ?_) (fun x y => ?_) (fun k => ?_)
    · show _ ∧ _ ↔ (_ ∧ _) ∧ _
      rw [hst]
      constructor
      · rintro ⟨e | ⟨h3, h4⟩, hl⟩
        · cases e
        · exact ⟨⟨h3, hl⟩, fun e => h4 ⟨e.2, e.1⟩⟩
      · rintro ⟨⟨h3, hl⟩, h4⟩
        exact ⟨.inr ⟨h3, fun e => h4 ⟨e.2, e.1⟩⟩, hl⟩
    · constructor
      · rintro ⟨q, hq, rfl, rfl⟩
        rcases (hst _).mp hq with e | ⟨h3, -⟩
        · cases e
          exact .inl ⟨rfl, rfl⟩
        · exact .inr ⟨q, h3, rfl, rfl⟩
      · intro hx
        by_cases e : x = r.revokedBy ∧ y = r.pk
        · exact ⟨_, (hst _).mpr (.inl rfl), e.1.symm, e.2.symm⟩
        · obtain ⟨q, hq, rfl, rfl⟩ := hx.resolve_left e
          exact ⟨q, (hst _).mpr (.inr ⟨hq, fun e' => e ⟨e'.2, e'.1⟩⟩), rfl, rfl⟩
    · have : db'.roots = db.roots := by
        have := congrArg Db.roots hd
        rw [Db.update, if_pos hn'] at this
        exact this
      show (∃ row ∈ db'.roots, _) ↔ ∃ row ∈ db.roots, _
      rw [this]
  · intro hn
    have hn' : ¬ db.calm.Newer (.revocation r) := fun h => hn ((Spec.news_iff hh.calm).mp h)
    rw [Db.update, if_neg hn'] at hd
    have : ∀ d : Db, d.certs X now = d.calm.certs X now := fun d => rfl
    rw [this, hd, ← this]

/-- **C140** for `add_trust`: the certificates that it adds use the new trust, or were cut by the issuer's revocation of the recipient, which the trust replaces; the certificates
that it takes away used the issuer's older trust in the recipient.  If it returns weight 0 or is not news it changes no answer. -/
theorem C140_add_trust {db db' : Db} {t : Trust} {a : PublicKey} {w : Nat} {now later : Dur} (hr : Reachable db) (hb : db.relations.length + 16 < 2 ^ 32)
    (h : TrustGraph.addTrust t a now db = (.ok w, db')) (hl : asI64 now.secs ≤ asI64 later.secs) {X : PublicKey} {cs cs' : List Certificate} {s s' : Db}
    (h1 : TrustGraph.getAllCerts X later db = (.ok cs, s)) (h2 : TrustGraph.getAllCerts X later db' = (.ok cs', s')) :
    (∀ c ∈ cs', c ∈ cs ∨ Spec.Uses a t.trunc c ∨ ((db.snapshot later).revoked a t.issuedFor ∧ Spec.Precedes a t.issuedFor c)) ∧
    (∀ c ∈ cs, c ∈ cs' ∨ ∃ old, (db.snapshot later).trusted a old ∧ old.issuedFor = t.issuedFor ∧ Spec.Uses a old c) ∧
    (w = 0 ∨ ¬ Spec.NewsAt db now (.auth ⟨t, a⟩) → ∀ c, c ∈ cs' ↔ c ∈ cs) := by
  have hh := hr.healthy
  have hh' : db'.Healthy := by
    have := (hr.step (.addTrust t a now)).healthy
    rwa [show Op.run (.addTrust t a now) db = db' from congrArg Prod.snd h] at this
  have hsnap : (db.calm.collect now).snapshot later = db.snapshot later := by
    have e : ∀ k t', (db.calm.collect now).Stored (.auth ⟨t', k⟩) ∧ Spec.Live t' later ↔ db.Stored (.auth ⟨t', k⟩) ∧ Spec.Live t' later := by
      intro k t'
      rw [Db.stored_collect]
      refine ⟨fun h => ⟨h.1.1, h.2⟩, fun h => ⟨⟨h.1, fun x e => ?_⟩, h.2⟩⟩
      cases e
      exact lt_of_le_of_lt hl h.2
    unfold Db.snapshot
    congr 1
    · funext k t'
      exact propext (e k t')
    · funext x y
      refine propext ⟨fun ⟨q, h1, h2⟩ => ⟨q, ((Db.stored_collect now).mp h1).1, h2⟩, fun ⟨q, h1, h2⟩ => ⟨q, (Db.stored_collect now).mpr ⟨h1, fun _ e => nomatch e⟩, h2⟩⟩
  have key : db'.calm = db.calm.collect now ∨ (w ≠ 0 ∧ Spec.NewsAt db now (.auth ⟨t, a⟩) ∧ db'.calm = (db.calm.collect now).put (.auth ⟨t, a⟩)) := by
    have h := (TrustGraph.addTrust_transparent t a now).ok h
    obtain ⟨-, wi, s1, hwi, -, h0, hs⟩ := C20_returned_weight h
    obtain ⟨w', hw'⟩ := Db.weight_returns hh.calm (Db.calm_noFaults _) (.inr hb) a now
    obtain rfl : s1 = db.calm.collect now := (Prod.ext_iff.mp (hwi.symm.trans hw')).2
    have hhc := hh.calm.collect now
    by_cases hw : w = 0
    · exact .inl (h0 hw)
    · have hu := (Prod.ext_iff.mp ((hs (Nat.pos_of_ne_zero hw)).symm.trans (Db.updateRelation_eq hhc ((Db.calm_noFaults db).collect now) _))).2
      by_cases hn : (db.calm.collect now).Newer (.auth ⟨t, a⟩)
      · rw [Db.update, if_pos hn] at hu
        exact .inr ⟨hw, (Spec.newsAt_iff hh.calm).mp hn, hu⟩
      · rw [Db.update, if_neg hn] at hu
        exact .inl hu
  rw [getAllCerts_ok hh h1, getAllCerts_ok hh' h2]
  simp only [Db.mem_certs_iff hh, Db.mem_certs_iff hh']
  rcases key with hd | ⟨hw, hn, hd⟩
  · have e : db'.snapshot later = db.snapshot later := (congrArg (Db.snapshot · later) hd).trans hsnap
    rw [e]
    exact ⟨fun c h => .inl h, fun c h => .inl h, fun _ c => Iff.rfl⟩
  · have hst : ∀ q, db'.Stored q ↔ q = (TrustRelation.auth ⟨t, a⟩).trunc ∨ ((db.calm.collect now).Stored q ∧ ¬ (q.issuedFor = t.issuedFor ∧ q.issuedBy = a)) := by
      intro q
      rw [← Db.stored_calm, hd, Db.stored_put]
      exact Iff.rfl
    have hroots : db'.roots = db.roots := by
      have := congrArg Db.roots hd
      exact this
    rw [← hsnap]
    refine ⟨fun c hc => trusted_new (fun k t' h => ?_) (fun x y h => ?_) (fun k h => ?_) hc, fun c hc => trusted_old (fun k t' h => ?_) (fun x y h => ?_) (fun k h => ?_) hc,
      fun h => absurd h (not_or.mpr ⟨hw, not_not_intro hn⟩)⟩
    · rcases (hst _).mp h.1 with e | ⟨h3, -⟩
      · cases e
        exact .inl ⟨rfl, rfl⟩
      · exact .inr ⟨h3, h.2⟩
    · obtain ⟨q, hq, rfl, rfl⟩ := h
      by_cases e : q.revokedBy = a ∧ q.pk = t.issuedFor
      · exact .inr e
      · exact .inl ⟨q, (hst _).mpr (.inr ⟨hq, fun e' => e ⟨e'.2, e'.1⟩⟩), rfl, rfl⟩
    · exact (show ∃ row ∈ db.roots, _ from hroots ▸ h)
    · by_cases e : k = a ∧ t'.issuedFor = t.issuedFor
      · exact .inr e
      · exact .inl ⟨(hst _).mpr (.inr ⟨h.1, fun e' => e ⟨e'.2, e'.1⟩⟩), h.2⟩
    · obtain ⟨q, hq, rfl, rfl⟩ := h
      rcases (hst _).mp hq with e | ⟨h3, -⟩
      · cases e
      · exact ⟨q, h3, rfl, rfl⟩
    · exact (show ∃ row ∈ db'.roots, _ from hroots.symm ▸ h)

/-- **C140**, time: at a later time the certificates are exactly those of before all of whose trusts are still live. -/
theorem C140_time {db : Db} (hr : Reachable db) {now later : Dur} (hl : asI64 now.secs ≤ asI64 later.secs) {X : PublicKey} {cs cs' : List Certificate} {s s' : Db}
    (h1 : TrustGraph.getAllCerts X now db = (.ok cs, s)) (h2 : TrustGraph.getAllCerts X later db = (.ok cs', s')) :
    ∀ c, c ∈ cs' ↔ c ∈ cs ∧ ∀ t ∈ c.chain, Spec.Live t later := by
  have hh := hr.healthy
  have mono : ∀ t, Spec.Live t later → Spec.Live t now := fun _ h => lt_of_le_of_lt hl h
  intro c
  rw [getAllCerts_ok hh h1, getAllCerts_ok hh h2, Db.mem_certs_iff hh, Db.mem_certs_iff hh]
  constructor
  · intro h
    refine ⟨⟨⟨h.linked.long, fun t h0 => ⟨(h.linked.root t h0).1, (h.linked.root t h0).2.1, mono _ (h.linked.root t h0).2.2⟩,
      fun i x y hx hy => ⟨(h.linked.link i x y hx hy).1, mono _ (h.linked.link i x y hx hy).2⟩, h.linked.target⟩, h.noRevisit,
      fun i j x y h1 h2 h3 h4 h5 => h.unrevoked i j x y h1 h2 h3 h4 h5⟩, fun t ht => ?_⟩
    obtain ⟨i, hi, rfl⟩ := List.mem_iff_getElem.mp ht
    rcases i with _ | i
    · exact (h.linked.root _ (List.getElem?_eq_getElem hi)).2.2
    · exact (h.linked.link i _ _ (List.getElem?_eq_getElem (by omega)) (List.getElem?_eq_getElem hi)).2
  · rintro ⟨h, hv⟩
    exact ⟨⟨h.linked.long, fun t h0 => ⟨(h.linked.root t h0).1, (h.linked.root t h0).2.1, hv t (List.mem_of_getElem? h0)⟩,
      fun i x y hx hy => ⟨(h.linked.link i x y hx hy).1, hv y (List.mem_of_getElem? hy)⟩, h.linked.target⟩, h.noRevisit,
      fun i j x y h1 h2 h3 h4 h5 => h.unrevoked i j x y h1 h2 h3 h4 h5⟩

end TG
