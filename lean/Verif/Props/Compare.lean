/-
Property C147: two nodes that give different answers differ in something that can be named.
-/
import Verif.Props.History
import Verif.Props.Weights

namespace TG
variable [Env]

/-- What keeps a chain of trusts that is a certificate elsewhere from being one in the graph `g`. -/
inductive Spec.Obstacle (g : Spec.Snapshot) (c : Certificate) : Prop
  /-- Its first key is not a root here. -/
  | noRoot (t : Trust) (h : c.chain[0]? = some t) (hn : ¬ g.root t.issuedFor)
  /-- The trust it begins with is not present and in force here. -/
  | noRootTrust (t : Trust) (h : c.chain[0]? = some t) (hn : ¬ g.trusted t.issuedFor t)
  /-- One of the other trusts is not. -/
  | noTrust (i : Nat) (a b : Trust) (h : c.chain[i]? = some a) (h' : c.chain[i + 1]? = some b) (hn : ¬ g.trusted a.issuedFor b)
  /-- Somebody on it has revoked somebody after them, other than the issuer of the last trust. -/
  | revoked (i j : Nat) (a b : Trust) (hij : i < j) (h : c.chain[i]? = some a) (h' : c.chain[j]? = some b) (hj : j + 2 ≠ c.chain.length)
      (hr : g.revoked a.issuedFor b.issuedFor)

omit [Env] in
theorem Spec.Obstacle.iff [Env] {g g' : Spec.Snapshot} {X : PublicKey} {c : Certificate} (h : Spec.Admissible g X c) :
    ¬ Spec.Admissible g' X c ↔ Spec.Obstacle g' c := by
  constructor
  · intro hn
    by_contra ho
    refine hn ⟨⟨h.linked.long, fun t ht => ⟨?_, ?_⟩, fun i a b ha hb => ?_, h.linked.target⟩, h.noRevisit, fun i j a b hij ha hb hj hr => ?_⟩
    · by_contra hx; exact ho (.noRoot t ht hx)
    · by_contra hx; exact ho (.noRootTrust t ht hx)
    · by_contra hx; exact ho (.noTrust i a b ha hb hx)
    · exact ho (.revoked i j a b hij ha hb hj hr)
  · rintro (⟨t, ht, hx⟩ | ⟨t, ht, hx⟩ | ⟨i, a, b, ha, hb, hx⟩ | ⟨i, j, a, b, hij, ha, hb, hj, hr⟩) h'
    · exact hx (h'.linked.root t ht).1
    · exact hx (h'.linked.root t ht).2
    · exact hx (h'.linked.link i a b ha hb)
    · exact h'.unrevoked i j a b hij ha hb hj hr

/-- **C147.**  A certificate that one node shows for a key is missing from the answer of another one exactly if something there stands against it: its first key is
not a root there, or one of its trusts is not in force there, or somebody on it has there revoked somebody after them (other than the issuer of the last trust, F1). -/
theorem C147_reason {db db' s s' : Db} {X : PublicKey} {now now' : Dur} {cs cs' : List Certificate} (hr : Reachable db) (hr' : Reachable db')
    (h : TrustGraph.getAllCerts X now db = (.ok cs, s)) (h' : TrustGraph.getAllCerts X now' db' = (.ok cs', s')) (c : Certificate) (hc : c ∈ cs) :
    c ∉ cs' ↔ Spec.Obstacle (db'.snapshot now') c := by
  have ha := ((C02_complete_exactly_once hr.healthy h).2 c).1 hc
  rw [(C02_complete_exactly_once hr'.healthy h').2 c]
  exact Spec.Obstacle.iff ha

theorem Spec.head_root {g : Spec.Snapshot} {X : PublicKey} {c : Certificate} (h : Spec.Admissible g X c) :
    ∃ t rest, c.chain = t :: rest ∧ g.root t.issuedFor := by
  have hl := h.linked.long
  match hc : c.chain with
  | [] => rw [hc] at hl; simp at hl
  | t :: rest => exact ⟨t, rest, rfl, (h.linked.root t (by rw [hc]; rfl)).1⟩

theorem rootFactor_of_root {db : Db} {now : Dur} {k : PublicKey} (h : (db.snapshot now).root k) : ∃ f, db.rootFactor k = some f :=
  Option.isSome_iff_exists.1 (Db.rootFactor_isSome.2 h)

/-- **C147.**  If the second node weighs a key less than the first, then the key itself is a root of the first and, at the second, none or one with a larger factor;
or one of the certificates the first shows for it, worth all of that weight, has something against it at the second or begins with a root that has a larger factor
there. -/
theorem C147_lower_weight {db db' s r r' : Db} {X : PublicKey} {now now' : Dur} {cs : List Certificate} {w w' : Nat} (hr : Reachable db)
    (hr' : Reachable db') (hn : db.relations.length + 16 < 2 ^ 32) (hn' : db'.relations.length + 16 < 2 ^ 32)
    (h : TrustGraph.getAllCerts X now db = (.ok cs, s)) (hw : TrustGraph.weight X now db = (.ok w, r)) (hw' : TrustGraph.weight X now' db' = (.ok w', r'))
    (hlt : w' < w) :
    (∃ f, db.rootFactor X = some f ∧ w = 2 ^ (16 - f) ∧ ∀ f', db'.rootFactor X = some f' → f < f') ∨
    ∃ c ∈ cs, w = db.certWeight c ∧ (Spec.Obstacle (db'.snapshot now') c ∨
      ∃ k f f', c.keys.head? = some k ∧ db.rootFactor k = some f ∧ db'.rootFactor k = some f' ∧ f < f') := by
  have g := weight_ok hr.healthy hn hw
  have g' := weight_ok hr'.healthy hn' hw'
  rcases g.1 with rfl | ⟨f, hf, rfl⟩ | ⟨c, hc, rfl⟩
  · omega
  · refine .inl ⟨f, hf, rfl, fun f' hf' => ?_⟩
    by_contra hle
    have := g'.2 (.inr (.inl ⟨f', hf', rfl⟩))
    have hp : 2 ^ (16 - f) ≤ 2 ^ (16 - f') := Nat.pow_le_pow_right (by decide) (by omega)
    omega
  · refine .inr ⟨c, ((C02_complete_exactly_once hr.healthy h).2 c).2 hc, rfl, ?_⟩
    by_cases ho : Spec.Admissible (db'.snapshot now') X c
    · right
      obtain ⟨t, rest, hch, hroot⟩ := Spec.head_root hc
      obtain ⟨t', rest', hch', hroot'⟩ := Spec.head_root ho
      rw [hch] at hch'
      cases hch'
      obtain ⟨f, hf⟩ := rootFactor_of_root hroot
      obtain ⟨f', hf'⟩ := rootFactor_of_root hroot'
      refine ⟨t.issuedFor, f, f', by simp [Certificate.keys, hch], hf, hf', ?_⟩
      by_contra hle
      have hu := g'.2 (.inr (.inr ⟨c, ho, rfl⟩))
      have e : db.certWeight c = 2 ^ (16 - (f + rest.length)) := by simp [Db.certWeight, hch, hf]
      have e' : db'.certWeight c = 2 ^ (16 - (f' + rest.length)) := by simp [Db.certWeight, hch, hf']
      have hp : 2 ^ (16 - (f + rest.length)) ≤ 2 ^ (16 - (f' + rest.length)) := Nat.pow_le_pow_right (by decide) (by omega)
      omega
    · exact .inl ((Spec.Obstacle.iff hc).1 ho)

/-- **C147.**  A node that knows at least the roots and the trusts in force of another and at most its revocations shows at least its certificates, and weighs no key
less. -/
theorem C147_more_trust {db db' : Db} {now now' : Dur} (hr : Reachable db) (hr' : Reachable db')
    (hroot : ∀ k f, db.rootFactor k = some f → ∃ f' ≤ f, db'.rootFactor k = some f')
    (htrust : ∀ k t, db.Stored (.auth ⟨t, k⟩) → Spec.Live t now → db'.Stored (.auth ⟨t, k⟩) ∧ Spec.Live t now')
    (hrev : ∀ q : Revocation, db'.Stored (.revocation q) → ∃ p : Revocation, db.Stored (.revocation p) ∧ p.revokedBy = q.revokedBy ∧ p.pk = q.pk)
    (X : PublicKey) :
    (∀ cs cs' s s', TrustGraph.getAllCerts X now db = (.ok cs, s) → TrustGraph.getAllCerts X now' db' = (.ok cs', s') → ∀ c ∈ cs, c ∈ cs') ∧
    (db.relations.length + 16 < 2 ^ 32 → db'.relations.length + 16 < 2 ^ 32 → ∀ w w' s s', TrustGraph.weight X now db = (.ok w, s) →
      TrustGraph.weight X now' db' = (.ok w', s') → w ≤ w') := by
  have hno : ∀ c, Spec.Admissible (db.snapshot now) X c → ¬ Spec.Obstacle (db'.snapshot now') c := by
    rintro c hc (⟨t, ht, hx⟩ | ⟨t, ht, hx⟩ | ⟨i, a, b, ha, hb, hx⟩ | ⟨i, j, a, b, hij, ha, hb, hj, q, hq, e1, e2⟩)
    · obtain ⟨f, hf⟩ := rootFactor_of_root (hc.linked.root t ht).1
      obtain ⟨f', -, hf'⟩ := hroot _ _ hf
      exact hx (Db.rootFactor_isSome.1 (by rw [hf']; rfl))
    · have := (hc.linked.root t ht).2
      exact hx (htrust _ _ this.1 this.2)
    · have := hc.linked.link i a b ha hb
      exact hx (htrust _ _ this.1 this.2)
    · obtain ⟨p, hp, e3, e4⟩ := hrev q hq
      exact hc.unrevoked i j a b hij ha hb hj ⟨p, hp, e3.trans e1, e4.trans e2⟩
  refine ⟨fun cs cs' s s' h h' c hc => ?_, fun hn hn' w w' s s' hw hw' => ?_⟩
  · by_contra hx
    exact hno c (((C02_complete_exactly_once hr.healthy h).2 c).1 hc) ((C147_reason hr hr' h h' c hc).1 hx)
  · have g := weight_ok hr.healthy hn hw
    have g' := weight_ok hr'.healthy hn' hw'
    rcases g.1 with rfl | ⟨f, hf, rfl⟩ | ⟨c, hc, rfl⟩
    · exact Nat.zero_le _
    · obtain ⟨f', hle, hf'⟩ := hroot _ _ hf
      exact (Nat.pow_le_pow_right (by decide) (by omega)).trans (g'.2 (.inr (.inl ⟨f', hf', rfl⟩)))
    · have ha : Spec.Admissible (db'.snapshot now') X c := not_not.1 fun hx => hno c hc ((Spec.Obstacle.iff hc).1 hx)
      refine Nat.le_trans ?_ (g'.2 (.inr (.inr ⟨c, ha, rfl⟩)))
      obtain ⟨t, rest, hch, hk⟩ := Spec.head_root hc
      obtain ⟨f, hf⟩ := rootFactor_of_root hk
      obtain ⟨f', hle, hf'⟩ := hroot _ _ hf
      simp only [Db.certWeight, hch, hf, hf']
      exact Nat.pow_le_pow_right (by decide) (by omega)

end TG
