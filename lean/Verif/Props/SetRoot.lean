/-
Property C115: setting a root only adds.
-/
import Verif.Props.History
import Verif.Props.Weights

namespace TG
variable [Env]

theorem setRoot_ok {db db1 : Db} {k : PublicKey} {n : Nat} (h1 : TrustGraph.setRoot k n db = (.ok (), db1)) :
    db1.relations = db.relations ∧ db1.roots = db.roots ++ [⟨keyText k, ((getWeightFactor n : Nat) : Int)⟩] := by
  have hcalm := (TrustGraph.setRoot_transparent k n).ok h1
  rw [show TrustGraph.setRoot k n db.calm = (.ok (), db.calm.addRoot k (getWeightFactor n)) from rfl] at hcalm
  have e : db1.calm = db.calm.addRoot k (getWeightFactor n) := (Prod.ext_iff.mp hcalm).2.symm
  have e1 : db1.calm.relations = db.calm.relations := by rw [e]; rfl
  exact ⟨e1, congrArg Db.roots e⟩

theorem rootFactor_setRoot {db db1 : Db} {k : PublicKey} {n : Nat} (h1 : TrustGraph.setRoot k n db = (.ok (), db1)) (x : PublicKey) :
    db1.rootFactor x = if db.rootFactor x = none ∧ x = k then some (16 - min 16 n) else db.rootFactor x := by
  unfold Db.rootFactor
  rw [(setRoot_ok h1).2, List.find?_append]
  generalize db.roots.find? (fun r => r.publicKey = keyText x) = o
  rcases o with _ | row
  · by_cases hx : x = k
    · subst hx
      rw [if_pos ⟨rfl, rfl⟩]
      simp only [List.find?_cons, decide_true, Option.none_or, Option.map_some, getWeightFactor, maxWeightFactor]
      congr 1
      omega
    · have : keyText k ≠ keyText x := fun e => hx (keyText_inj e).symm
      simp [this, hx]
  · simp

/-- **C115.** `set_root(k, n)` leaves trusts and revocations alone.  No certificate is lost; the new ones begin with `k`, and there are none if `k` was a root
before.  No weight gets lower; where one gets higher, `k` was no root before, and it is the new weight of `k` itself, `2^min(16, n)`, or the weight of a
certificate that begins with `k`. -/
theorem C115_set_root_adds {db db1 : Db} {k : PublicKey} {n : Nat} (hr : Reachable db) (h1 : TrustGraph.setRoot k n db = (.ok (), db1)) :
    (∀ q, db1.Stored q ↔ db.Stored q) ∧
    ∀ (X : PublicKey) (now : Dur) (cs cs' : List Certificate) (s s' : Db), TrustGraph.getAllCerts X now db = (.ok cs, s) →
      TrustGraph.getAllCerts X now db1 = (.ok cs', s') →
      (∀ c ∈ cs, c ∈ cs') ∧ (∀ c ∈ cs', c ∉ cs → db.rootFactor k = none ∧ c.keys.head? = some k) ∧
      (db.relations.length + 16 < 2 ^ 32 → ∀ w w' r r', TrustGraph.weight X now db = (.ok w, r) → TrustGraph.weight X now db1 = (.ok w', r') →
        w ≤ w' ∧ (w < w' → db.rootFactor k = none ∧
          (X = k ∧ w' = 2 ^ min 16 n ∨ ∃ c ∈ cs', c.keys.head? = some k ∧ w' = 2 ^ (min 16 n - (c.chain.length - 1))))) := by
  obtain ⟨hrel, hroots⟩ := setRoot_ok h1
  have hh := hr.healthy
  have hh1 : db1.Healthy := by
    have := (hr.step (.setRoot k n)).healthy
    rwa [show Op.run (.setRoot k n) db = db1 from congrArg Prod.snd h1] at this
  have hst : ∀ q, db1.Stored q ↔ db.Stored q := fun q => by
    unfold Db.Stored
    rw [hrel]
  have hfac := rootFactor_setRoot h1
  refine ⟨hst, fun X now cs cs' s s' h h' => ?_⟩
  have htr : ∀ a t, (db1.snapshot now).trusted a t ↔ (db.snapshot now).trusted a t := fun a t => and_congr_left' (hst _)
  have hrv : ∀ a b, (db1.snapshot now).revoked a b ↔ (db.snapshot now).revoked a b := fun a b => exists_congr fun r => and_congr_left' (hst _)
  have hrt : ∀ x, (db1.snapshot now).root x ↔ (db.snapshot now).root x ∨ (db.rootFactor k = none ∧ x = k) := by
    intro x
    refine (Db.rootFactor_isSome (db := db1)).symm.trans (Iff.trans ?_ (or_congr_left (Db.rootFactor_isSome (db := db))))
    rw [hfac]
    split
    · rename_i hc
      simp only [Option.isSome_some, true_iff]
      exact .inr ⟨hc.2 ▸ hc.1, hc.2⟩
    · rename_i hc
      constructor
      · exact .inl
      · rintro (h | ⟨h, rfl⟩)
        · exact h
        · exact absurd ⟨h, rfl⟩ hc
  have m1 := (C02_complete_exactly_once hh h).2
  have m2 := (C02_complete_exactly_once hh1 h').2
  have hfwd : ∀ Y c, Spec.Admissible (db.snapshot now) Y c → Spec.Admissible (db1.snapshot now) Y c := fun Y c hc =>
    ⟨⟨hc.linked.long, fun t ht => ⟨(hrt _).mpr (.inl (hc.linked.root t ht).1), (htr _ _).mpr (hc.linked.root t ht).2⟩,
      fun i a b ha hb => (htr _ _).mpr (hc.linked.link i a b ha hb), hc.linked.target⟩, hc.noRevisit,
      fun i j a b hij ha hb hne hr => hc.unrevoked i j a b hij ha hb hne ((hrv _ _).mp hr)⟩
  have hbwd : ∀ c, Spec.Admissible (db1.snapshot now) X c → Spec.Admissible (db.snapshot now) X c ∨ (db.rootFactor k = none ∧ c.keys.head? = some k) := by
    intro c hc
    have hlong := hc.linked.long
    have h0 : c.chain[0]? = some c.chain[0] := List.getElem?_eq_getElem (by omega)
    rcases (hrt _).mp (hc.linked.root _ h0).1 with h | ⟨h, e⟩
    · left
      refine ⟨⟨hc.linked.long, fun t ht => ⟨?_, (htr _ _).mp (hc.linked.root t ht).2⟩,
        fun i a b ha hb => (htr _ _).mp (hc.linked.link i a b ha hb), hc.linked.target⟩, hc.noRevisit,
        fun i j a b hij ha hb hne hr => hc.unrevoked i j a b hij ha hb hne ((hrv _ _).mpr hr)⟩
      rw [h0] at ht
      cases ht
      exact h
    · right
      refine ⟨h, ?_⟩
      rw [List.head?_eq_getElem?]
      exact Spec.keys_getElem?.mpr ⟨_, h0, e⟩
  refine ⟨fun c hc => (m2 c).mpr (hfwd X c ((m1 c).mp hc)), fun c hc hno => ?_, fun hn w w' r r' hw hw' => ?_⟩
  · rcases hbwd c ((m2 c).mp hc) with h | h
    · exact absurd ((m1 c).mpr h) hno
    · exact h
  · have g := weight_ok hh hn hw
    have g' := weight_ok hh1 (by rw [hrel]; exact hn) hw'
    have hcw : ∀ c, Spec.Admissible (db.snapshot now) X c → db1.certWeight c = db.certWeight c := by
      intro c hc
      have hlong := hc.linked.long
      have hroot := hc.linked.root
      unfold Db.certWeight
      rcases hch : c.chain with _ | ⟨t, ts⟩
      · rfl
      · have := Db.rootFactor_isSome.mpr (hroot t (by rw [hch]; rfl)).1
        have hne : ¬ (db.rootFactor t.issuedFor = none ∧ t.issuedFor = k) := fun h => by rw [h.1] at this; cases this
        simp only [hfac, if_neg hne]
    constructor
    · rcases g.1 with rfl | ⟨f, hf, rfl⟩ | ⟨c, hc, rfl⟩
      · exact Nat.zero_le _
      · refine g'.2 (.inr (.inl ⟨f, ?_, rfl⟩))
        rw [hfac, if_neg (by rw [hf]; rintro ⟨h, -⟩; cases h), hf]
      · exact g'.2 (.inr (.inr ⟨c, hfwd X c hc, (hcw c hc).symm⟩))
    · intro hlt
      rcases g'.1 with rfl | ⟨f, hf, rfl⟩ | ⟨c, hc, rfl⟩
      · cases hlt
      · rw [hfac] at hf
        split at hf
        · rename_i hx
          cases hf
          refine ⟨hx.2 ▸ hx.1, .inl ⟨hx.2, ?_⟩⟩
          congr 1
          omega
        · exact absurd (g.2 (.inr (.inl ⟨f, hf, rfl⟩))) (Nat.not_le.mpr hlt)
      · by_cases hc0 : Spec.Admissible (db.snapshot now) X c
        · rw [hcw c hc0] at hlt
          exact absurd (g.2 (.inr (.inr ⟨c, hc0, rfl⟩))) (Nat.not_le.mpr hlt)
        · obtain ⟨h0, hk⟩ := (hbwd c hc).resolve_left hc0
          refine ⟨h0, .inr ⟨c, (m2 c).mpr hc, hk, ?_⟩⟩
          have hlong := hc.linked.long
          unfold Db.certWeight
          rcases hch : c.chain with _ | ⟨t, ts⟩
          · rw [hch] at hlong; cases hlong
          · have e : t.issuedFor = k := by
              unfold Certificate.keys at hk
              rw [hch] at hk
              exact Option.some.inj hk
            dsimp only
            rw [hfac, e, if_pos ⟨h0, rfl⟩]
            dsimp only
            congr 1
            simp only [List.length_cons]
            omega

end TG
