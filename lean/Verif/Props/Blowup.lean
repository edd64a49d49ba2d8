/-
C103: how many certificates there can be.
-/
import Verif.Props.Chain
import Mathlib.Data.List.Permutation

namespace TG
variable [LawfulEnv]
open Nat

/-- The certificate along a list of keys: the root's trust in itself, then from key to key. -/
def certAlong (trust : PublicKey → PublicKey → Trust) (ks : List PublicKey) : Certificate :=
  ⟨List.zipWith trust (ks.head?.toList ++ ks) ks⟩

section
variable {trust : PublicKey → PublicKey → Trust} {ks : List PublicKey}

theorem certAlong_length : (certAlong trust ks).chain.length = ks.length := by
  simp only [certAlong, List.length_zipWith, List.length_append]
  omega

theorem certAlong_keys (hf : ∀ a b, (trust a b).issuedFor = b) : (certAlong trust ks).chain.map (·.issuedFor) = ks := by
  unfold certAlong
  rw [List.map_zipWith]
  simp only [hf]
  apply List.ext_getElem?
  intro i
  rw [List.getElem?_zipWith]
  rcases ks with _ | ⟨k, ks⟩
  · rfl
  · rcases h : (k :: ks)[i]? with _ | x
    · cases h' : (([k] ++ k :: ks : List PublicKey)[i]?) <;> simp
    · have : i < ([k] ++ k :: ks).length := by
        have := (List.getElem?_eq_some_iff.mp h).1
        simp at this ⊢
        omega
      obtain ⟨y, hy⟩ : ∃ y, ((k :: ks).head?.toList ++ k :: ks)[i]? = some y := ⟨_, List.getElem?_eq_getElem this⟩
      rw [hy]

theorem certAlong_get (hf : ∀ a b, (trust a b).issuedFor = b) {i : Nat} {t : Trust} (h : (certAlong trust ks).chain[i]? = some t) :
    ks[i]? = some t.issuedFor := by
  have := congrArg (fun l : List PublicKey => l[i]?) (certAlong_keys (ks := ks) hf)
  simp only [List.getElem?_map, h, Option.map_some] at this
  exact this.symm

/-- The trusts of the certificate. -/
theorem certAlong_edge (hf : ∀ a b, (trust a b).issuedFor = b) {k : PublicKey} {t : Trust} :
    Spec.Edge (certAlong trust ks).chain k t ↔ ∃ (i : Nat) (b : PublicKey), (ks.head?.toList ++ ks)[i]? = some k ∧ ks[i]? = some b ∧ t = trust k b := by
  have hi : ∀ i, i < ks.length → (Spec.issuers (certAlong trust ks).chain)[i]? = (ks.head?.toList ++ ks)[i]? := by
    intro i hi
    have hk := certAlong_keys (ks := ks) hf
    rcases hc : (certAlong trust ks).chain with _ | ⟨t, ts⟩
    · rw [hc] at hk
      subst hk
      simp at hi
    · rw [hc] at hk
      subst hk
      simp only [Spec.issuers, List.map_cons, List.head?_cons, Option.toList_some, List.cons_append, List.nil_append]
      rcases i with _ | i
      · rfl
      · simp only [List.getElem?_cons_succ, List.getElem?_map]
        rw [← List.map_cons (f := fun t : Trust => t.issuedFor), List.getElem?_map, List.getElem?_dropLast, if_pos]
        simpa using hi
  constructor
  · rintro ⟨i, h1, h2⟩
    have h3 := certAlong_get hf h2
    rw [hi i (List.getElem?_eq_some_iff.mp h3).1] at h1
    refine ⟨i, _, h1, h3, ?_⟩
    unfold certAlong at h2
    rw [List.getElem?_zipWith, h1, h3] at h2
    exact (Option.some.inj h2).symm
  · rintro ⟨i, b, h1, h2, rfl⟩
    refine ⟨i, by rw [hi i (List.getElem?_eq_some_iff.mp h2).1]; exact h1, ?_⟩
    unfold certAlong
    rw [List.getElem?_zipWith, h1, h2]

theorem certAlong_noRevisit (hf : ∀ a b, (trust a b).issuedFor = b) (hd : ks.Nodup) : Spec.NoRevisit (certAlong trust ks).chain := by
  intro i j a b hij ha hb e
  have h1 := certAlong_get hf ha
  have h2 := certAlong_get hf hb
  rw [← e, ← h1] at h2
  have := (List.getElem?_inj (List.getElem?_eq_some_iff.mp h1).1 hd).mp h2.symm
  omega

end

theorem edge_of_mem {ts : List Trust} {t : Trust} (ht : t ∈ ts) : ∃ k, Spec.Edge ts k t := by
  obtain ⟨j, hj⟩ := List.mem_iff_getElem?.mp ht
  have hj' := (List.getElem?_eq_some_iff.mp hj).1
  refine ⟨_, j, List.getElem?_eq_getElem ?_, hj⟩
  rcases ts with _ | ⟨t, ts⟩
  · simp at hj'
  · simpa [Spec.issuers] using hj'

/-- Who may sign for whom in the attack: the root for itself and for `A`, `A` for the keys of `ks`, and these for each other and for `T`. -/
def Spec.Clique (R A T : PublicKey) (ks : List PublicKey) (a b : PublicKey) : Prop :=
  (a = R ∧ (b = R ∨ b = A)) ∨ (a = A ∧ b ∈ ks) ∨ (a ∈ ks ∧ (b = T ∨ b ∈ ks) ∧ a ≠ b)

/-- The edges of a path through the clique. -/
theorem clique_edge {R A T : PublicKey} {ks p : List PublicKey} (hp : p ≠ []) (hsub : ∀ x ∈ p, x ∈ ks) (hd : (R :: A :: (p ++ [T])).Nodup) {i : Nat} {a b : PublicKey}
    (ha : (R :: R :: A :: (p ++ [T]))[i]? = some a) (hb : (R :: A :: (p ++ [T]))[i]? = some b) : Spec.Clique R A T ks a b := by
  match i with
  | 0 => cases ha; cases hb; exact .inl ⟨rfl, .inl rfl⟩
  | 1 => cases ha; cases hb; exact .inl ⟨rfl, .inr rfl⟩
  | 2 =>
    cases ha
    rcases p with _ | ⟨x, p⟩
    · exact absurd rfl hp
    cases hb
    exact .inr (.inl ⟨rfl, hsub _ (.head _)⟩)
  | i + 3 =>
    simp only [List.getElem?_cons_succ] at ha hb
    obtain ⟨hi, hb'⟩ := List.getElem?_eq_some_iff.mp hb
    simp only [List.length_append, List.length_cons, List.length_nil] at hi
    have hi' : i < p.length := by omega
    have ha' := ha
    rw [List.getElem?_append_left hi'] at ha'
    have hab : a ≠ b := by
      rintro rfl
      have hd' : (p ++ [T]).Nodup := (List.nodup_cons.mp (List.nodup_cons.mp hd).2).2
      have := (List.getElem?_inj (i := i) (j := i + 1) (by simp; omega) hd').mp (by rw [ha, hb])
      omega
    refine .inr (.inr ⟨hsub _ (List.mem_of_getElem? ha'), ?_, hab⟩)
    rcases List.mem_append.mp (List.mem_of_getElem? hb) with h | h
    · exact .inr (hsub _ h)
    · exact .inl (List.mem_singleton.mp h)

section
variable {R A T : PublicKey} {ks : List PublicKey} {trust : PublicKey → PublicKey → Trust} {now : Dur}

/-- The trusts between the attacker's keys, and for `T`. -/
def cliquePairs (T : PublicKey) (ks : List PublicKey) : List (PublicKey × PublicKey) :=
  ks.flatMap (fun a => (T :: ks.erase a).map (fun b => (a, b)))

/-- The paths that the attacker submits. -/
def cliquePaths (R A T : PublicKey) (ks : List PublicKey) : List (List PublicKey) :=
  (cliquePairs T ks).map (fun p => [R, A, p.1, p.2])

theorem mem_cliquePairs (hd : ks.Nodup) {a b : PublicKey} : (a, b) ∈ cliquePairs T ks ↔ a ∈ ks ∧ (b = T ∨ b ≠ a ∧ b ∈ ks) := by
  simp only [cliquePairs, List.mem_flatMap, List.mem_map, List.mem_cons, hd.mem_erase_iff, Prod.mk.injEq]
  constructor
  · rintro ⟨a, ha, b, hb, rfl, rfl⟩
    exact ⟨ha, hb⟩
  · rintro ⟨ha, hb⟩
    exact ⟨a, ha, b, hb, rfl, rfl⟩

theorem mem_cliquePaths (hd : ks.Nodup) {p : List PublicKey} :
    p ∈ cliquePaths R A T ks ↔ ∃ a b, p = [R, A, a, b] ∧ a ∈ ks ∧ (b = T ∨ b ≠ a ∧ b ∈ ks) := by
  simp only [cliquePaths, List.mem_map, Prod.exists, mem_cliquePairs hd]
  constructor
  · rintro ⟨a, b, h, rfl⟩
    exact ⟨a, b, rfl, h⟩
  · rintro ⟨a, b, rfl, h⟩
    exact ⟨a, b, h, rfl⟩

theorem cliquePairs_length : (cliquePairs T ks).length = ks.length * ks.length := by
  unfold cliquePairs
  rw [List.length_flatMap, List.map_congr_left (g := fun _ => ks.length), List.map_const', List.sum_replicate_nat]
  · intro a ha
    have := List.length_pos_of_mem ha
    simp [List.length_erase_of_mem ha]
    omega

theorem cliquePaths_length : (cliquePaths R A T ks).length = ks.length * ks.length := by
  rw [cliquePaths, List.length_map, cliquePairs_length]

theorem cliquePath_nodup (hd : (T :: R :: A :: ks).Nodup) {p : List PublicKey} (hp : p ∈ cliquePaths R A T ks) : p.Nodup := by
  have hks : ks.Nodup := (List.nodup_cons.mp (List.nodup_cons.mp (List.nodup_cons.mp hd).2).2).2
  obtain ⟨a, b, rfl, ha, hb⟩ := (mem_cliquePaths hks).mp hp
  simp only [List.nodup_cons, List.mem_cons, not_or] at hd ⊢
  obtain ⟨⟨h1, h2, h3⟩, ⟨h4, h5⟩, h6, -⟩ := hd
  have ha' : R ≠ a := fun e => h5 (e ▸ ha)
  have ha2 : A ≠ a := fun e => h6 (e ▸ ha)
  have hb' : R ≠ b := by
    rintro rfl
    rcases hb with e | ⟨-, hb⟩
    · exact h1 e.symm
    · exact h5 hb
  have hb2 : A ≠ b := by
    rintro rfl
    rcases hb with e | ⟨-, hb⟩
    · exact h2 e.symm
    · exact h6 hb
  have hab : a ≠ b := by
    rintro rfl
    rcases hb with rfl | ⟨hb, -⟩
    · exact h3 ha
    · exact hb rfl
  simp [h4, ha', ha2, hb', hb2, hab]

/-- The certificates that the attacker submits. -/
def cliqueCerts (trust : PublicKey → PublicKey → Trust) (R A T : PublicKey) (ks : List PublicKey) (now : Dur) : List (Certificate × Dur) :=
  (cliquePaths R A T ks).map (fun p => (certAlong trust p, now))

/-- Their trusts. -/
theorem cliqueCerts_edge (hf : ∀ a b, (trust a b).issuedFor = b) (hd : (T :: R :: A :: ks).Nodup) (hks : ks ≠ []) {k : PublicKey} {t : Trust} :
    (∃ p ∈ cliqueCerts trust R A T ks now, Spec.Edge p.1.chain k t) ↔ ∃ b, Spec.Clique R A T ks k b ∧ t = trust k b := by
  have hk : ks.Nodup := (List.nodup_cons.mp (List.nodup_cons.mp (List.nodup_cons.mp hd).2).2).2
  have hT : T ∉ ks := fun h => (List.nodup_cons.mp hd).1 (.tail _ (.tail _ h))
  simp only [cliqueCerts, List.mem_map]
  constructor
  · rintro ⟨_, ⟨p, hp, rfl⟩, he⟩
    obtain ⟨i, b, h1, h2, rfl⟩ := (certAlong_edge hf).mp he
    refine ⟨b, ?_, rfl⟩
    obtain ⟨a, b', rfl, ha, hb⟩ := (mem_cliquePaths hk).mp hp
    match i with
    | 0 => cases h1; cases h2; exact .inl ⟨rfl, .inl rfl⟩
    | 1 => cases h1; cases h2; exact .inl ⟨rfl, .inr rfl⟩
    | 2 => cases h1; cases h2; exact .inr (.inl ⟨rfl, ha⟩)
    | 3 =>
      cases h1; cases h2
      refine .inr (.inr ⟨ha, hb.imp id (·.2), ?_⟩)
      rintro rfl
      rcases hb with rfl | ⟨hb, -⟩
      · exact hT ha
      · exact hb rfl
    | i + 4 => simp at h2
  · rintro ⟨b, h, rfl⟩
    obtain ⟨x, hx⟩ := List.exists_mem_of_ne_nil ks hks
    have key : ∀ (a c : PublicKey) (i : Nat), a ∈ ks → (c = T ∨ c ≠ a ∧ c ∈ ks) → [R, R, A, a, c][i]? = some k → [R, A, a, c][i]? = some b →
        ∃ q, (∃ p, p ∈ cliquePaths R A T ks ∧ (certAlong trust p, now) = q) ∧ Spec.Edge q.1.chain k (trust k b) := by
      intro a c i ha hc h1 h2
      exact ⟨_, ⟨_, (mem_cliquePaths hk).mpr ⟨a, c, rfl, ha, hc⟩, rfl⟩, (certAlong_edge hf).mpr ⟨i, b, h1, h2, rfl⟩⟩
    rcases h with ⟨rfl, rfl | rfl⟩ | ⟨rfl, hb⟩ | ⟨ha, hb, hne⟩
    · exact key x T 0 hx (.inl rfl) rfl rfl
    · exact key x T 1 hx (.inl rfl) rfl rfl
    · exact key b T 2 hb (.inl rfl) rfl rfl
    · exact key k b 3 ha (hb.imp id fun h => ⟨hne.symm, h⟩) rfl rfl

end

/-- **C103** (false as stated).  A key `A` that a root trusts directly can make the certificates of any other key `T` explode.  The owner of `A` makes `n` more keys,
lets `A` trust them, and lets them trust each other and `T`: all these calls succeed, at most `n² + n + 2` relations are stored, and `T` has at least `n!`
certificates, which every query about `T` enumerates.  The root has signed nothing but its trust in itself and in `A`. -/
theorem C103_blowup_fails {R A : KeyPair} {ks : List KeyPair} {T : PublicKey} {e i now : Dur} {m : Nat} {trust : PublicKey → PublicKey → Trust} (hks : ks ≠ [])
    (hd : (T :: (R :: A :: ks).map (·.pub)).Nodup) (hf : ∀ a b, (trust a b).issuedFor = b)
    (ht : ∀ k ∈ R :: A :: ks, ∀ b, Trust.create k b e i = .ok (trust k.pub b))
    (hw : e.Whole ∧ i.Whole) (hlive : asI64 now.secs < asI64 e.secs) (hnow : now.total ≤ e.total) (hm : 3 ≤ m ∧ m ≤ 16)
    (hn : ks.length * ks.length * 4 + 16 < 2 ^ 32) :
    ∃ cs d, (TrustGraph.setRoot R.pub m >>= fun _ => addAll cs) Db.empty = (.ok (), d) ∧
      (∀ p ∈ cs, ∀ k t, Spec.Edge p.1.chain k t → k ∈ (R :: A :: ks).map (·.pub) ∧ (k = R.pub → t.issuedFor = R.pub ∨ t.issuedFor = A.pub)) ∧
      d.relations.length ≤ ks.length * ks.length + ks.length + 2 ∧
      ∃ certs s, TrustGraph.getAllCerts T now d = (.ok certs, s) ∧ ks.length ! ≤ certs.length := by
  let Rp := R.pub
  let Ap := A.pub
  let K := ks.map (·.pub)
  have hd' : (T :: Rp :: Ap :: K).Nodup := hd
  have hK : K ≠ [] := by simpa [K] using hks
  have hKn : K.Nodup := (List.nodup_cons.mp (List.nodup_cons.mp (List.nodup_cons.mp hd').2).2).2
  have hlen : K.length = ks.length := List.length_map ..
  have htr : ∀ k ∈ R :: A :: ks, ∀ b, (trust k.pub b).verify k.pub now = .ok () ∧ (trust k.pub b).expiresAt = e ∧ (trust k.pub b).issuedAt = i := by
    intro k hk b
    have h := ht k hk b
    unfold Trust.create at h
    rcases hs : k.sign (Trust.signatureBytes b e i) with sig | _ | _ | _
    all_goals simp only [hs, Outcome.unwrap] at h
    · have hv := C41_genuine_accepted _ _ _ (C42_sign_genuine k _ _ hs)
      replace h := Outcome.ok.inj h
      rw [← h]
      exact ⟨(C38_verify_decides _ _ _).mpr ⟨hnow, hv⟩, rfl, rfl⟩
    all_goals cases h
  have hcl : ∀ {a b}, Spec.Clique Rp Ap T K a b → ∃ k ∈ R :: A :: ks, k.pub = a := by
    rintro a b (⟨rfl, -⟩ | ⟨rfl, -⟩ | ⟨ha, -⟩)
    · exact ⟨R, .head _, rfl⟩
    · exact ⟨A, .tail _ (.head _), rfl⟩
    · obtain ⟨k, hk, rfl⟩ := List.mem_map.mp ha
      exact ⟨k, .tail _ (.tail _ hk), rfl⟩
  let cs := cliqueCerts trust Rp Ap T K now
  let d0 := Db.empty.addRoot Rp (16 - m)
  have hh0 : d0.Healthy := Reachable.init.healthy.addRoot Rp (by omega)
  have hedge : ∀ {p}, p ∈ cs → ∀ {k t}, Spec.Edge p.1.chain k t → ∃ b, Spec.Clique Rp Ap T K k b ∧ t = trust k b :=
    fun hp _ _ he => (cliqueCerts_edge hf hd' hK).mp ⟨_, hp, he⟩
  have hmem : ∀ {p}, p ∈ cs → ∀ t ∈ p.1.chain, ∃ k b, Spec.Clique Rp Ap T K k b ∧ t = trust k b := by
    intro p hp t ht
    obtain ⟨k, he⟩ := edge_of_mem ht
    obtain ⟨b, hb⟩ := hedge hp he
    exact ⟨k, b, hb⟩
  have hb : Spec.Bundle d0 cs := by
    refine ⟨?_, ?_⟩
    · intro p hp q hq
      obtain ⟨path, hpath, rfl⟩ := List.mem_map.mp hp
      obtain ⟨-, -, rfl⟩ := List.mem_map.mp hq
      have hnd := cliquePath_nodup hd' hpath
      obtain ⟨a, b, rfl, ha, hb⟩ := (mem_cliquePaths hKn).mp hpath
      refine ⟨?_, ?_, ?_, ?_, ?_, certAlong_noRevisit hf hnd, ?_, ?_⟩
      · rw [certAlong_length]; simp
      · intro t ht
        have := Option.some.inj (certAlong_get hf ht)
        refine ⟨16 - m, by rw [Db.addRoot_rootFactor, if_pos this.symm], ?_⟩
        rw [certAlong_length]
        simp
        omega
      · intro k t he
        obtain ⟨b, h1, rfl⟩ := hedge hp he
        obtain ⟨k, hk, rfl⟩ := hcl h1
        exact (htr k hk b).1
      · intro t ht
        obtain ⟨k, b, h1, rfl⟩ := hmem hp t ht
        obtain ⟨k, hk, rfl⟩ := hcl h1
        unfold Spec.Live
        rw [(htr k hk b).2.1]
        exact hlive
      · intro t ht
        obtain ⟨k, b, h1, rfl⟩ := hmem hp t ht
        obtain ⟨k, hk, rfl⟩ := hcl h1
        unfold Trust.WholeSeconds
        rw [(htr k hk b).2.1, (htr k hk b).2.2]
        exact hw
      · rintro _ _ _ _ _ _ _ ⟨r, hr, -⟩
        nomatch hr.2
      · exact fun _ _ _ r hr => nomatch hr.2
    · intro p hp q hq k t t' h1 h2 e
      obtain ⟨b, -, rfl⟩ := hedge hp h1
      obtain ⟨b', -, rfl⟩ := hedge hq h2
      rw [hf, hf] at e
      rw [e]
  have hsum : (cs.map (·.1.chain.length)).sum = ks.length * ks.length * 4 := by
    have : ∀ p ∈ cs, p.1.chain.length = 4 := by
      intro p hp
      obtain ⟨path, hpath, rfl⟩ := List.mem_map.mp hp
      obtain ⟨a, b, rfl, -⟩ := (mem_cliquePaths hKn).mp hpath
      rw [certAlong_length]
      rfl
    rw [List.map_congr_left this, List.map_const', List.sum_replicate_nat, show cs.length = _ from List.length_map .., cliquePaths_length, hlen]
  obtain ⟨d, h1, h2⟩ := import_addAll hh0 rfl hb (by
    rw [hsum]
    show 0 + _ + 16 < _
    omega)
  have hst : ∀ r, d.Stored r ↔ ∃ k b, Spec.Clique Rp Ap T K k b ∧ r = .auth ⟨trust k b, k⟩ := by
    intro r
    rw [h2.stored]
    constructor
    · rintro (⟨p, hp, k, t, he, rfl⟩ | h)
      · obtain ⟨b, hb, rfl⟩ := hedge hp he
        exact ⟨k, b, hb, rfl⟩
      · nomatch h.1.2
    · rintro ⟨k, b, h, rfl⟩
      obtain ⟨p, hp, he⟩ := (cliqueCerts_edge (now := now) hf hd' hK).mpr ⟨b, h, rfl⟩
      exact .inl ⟨p, hp, k, _, he, rfl⟩
  refine ⟨cs, d, ?_, ?_, ?_, _, _, Db.getAllCerts_eq h2.healthy h2.noFaults _ _, ?_⟩
  · rw [M.bind_run_ok (setRoot_noFaults (db := .empty) rfl Rp m)]
    exact h1
  · intro p hp k t he
    obtain ⟨b, hb, rfl⟩ := hedge hp he
    obtain ⟨k', hk, rfl⟩ := hcl hb
    refine ⟨List.mem_map.mpr ⟨k', hk, rfl⟩, fun e => ?_⟩
    rw [hf]
    have hR := (List.nodup_cons.mp (List.nodup_cons.mp hd').2).1
    rw [e] at hb
    rcases hb with ⟨-, hb⟩ | ⟨e', -⟩ | ⟨hb, -⟩
    · exact hb
    · exact absurd (show Rp ∈ Ap :: K from e' ▸ .head _) hR
    · exact absurd (.tail _ hb) hR
  · let P := [(Rp, Rp), (Rp, Ap)] ++ K.map (fun b => (Ap, b)) ++ cliquePairs T K
    have hP : P.length = ks.length * ks.length + ks.length + 2 := by
      simp only [P, List.length_append, List.length_map, cliquePairs_length, hlen, List.length_cons, List.length_nil]
      omega
    rw [← hP, ← List.length_map (fun r : RelRow => (r.issuedBy, r.issuedFor)), ← List.length_map (fun p : PublicKey × PublicKey => (keyText p.1, keyText p.2)) (as := P)]
    apply List.Subperm.length_le
    apply List.subperm_of_subset
    · exact List.pairwise_map.mpr (h2.healthy.unique.imp fun h e => h ⟨(Prod.ext_iff.mp e).2, (Prod.ext_iff.mp e).1⟩)
    · intro x hx
      obtain ⟨row, hrow, rfl⟩ := List.mem_map.mp hx
      obtain ⟨r, hr, rfl⟩ := h2.healthy.rows row hrow
      obtain ⟨k, b, hc, rfl⟩ := (hst r).mp ⟨hr, hrow⟩
      refine List.mem_map.mpr ⟨(k, b), ?_, ?_⟩
      · simp only [P, List.mem_append, List.mem_cons, List.mem_map, Prod.mk.injEq, mem_cliquePairs hKn]
        rcases hc with ⟨rfl, rfl | rfl⟩ | ⟨rfl, hb⟩ | ⟨ha, hb, hne⟩
        · simp
        · simp
        · exact .inl (.inr ⟨b, hb, rfl, rfl⟩)
        · exact .inr ⟨ha, hb.imp id fun h => ⟨hne.symm, h⟩⟩
      · rw [toRow_issuedBy, toRow_issuedFor]
        simp [TrustRelation.issuedBy, TrustRelation.issuedFor, hf]
  · have hperm : ∀ p ∈ K.permutations, certAlong trust (Rp :: Ap :: (p ++ [T])) ∈ d.certs T now := by
      intro p hp
      have hp := List.mem_permutations.mp hp
      have hp0 : p ≠ [] := by
        rintro rfl
        exact hK hp.nil_eq.symm
      have hnd : (Rp :: Ap :: (p ++ [T])).Nodup := by
        have : (Rp :: Ap :: (p ++ [T])).Perm (T :: Rp :: Ap :: K) := by
          refine (List.perm_append_comm (l₁ := Rp :: Ap :: p) (l₂ := [T])).trans ?_
          exact ((hp.cons _).cons _).cons _
        exact this.nodup_iff.mpr hd'
      rw [Db.mem_certs_iff h2.healthy]
      have hl : ∀ {k t}, Spec.Edge (certAlong trust (Rp :: Ap :: (p ++ [T]))).chain k t → ∃ b, Spec.Clique Rp Ap T K k b ∧ t = trust k b := by
        intro k t he
        obtain ⟨i, b, e1, e2, rfl⟩ := (certAlong_edge hf).mp he
        exact ⟨b, clique_edge hp0 (fun x hx => hp.subset hx) hnd e1 e2, rfl⟩
      have hlong : 2 ≤ (certAlong trust (Rp :: Ap :: (p ++ [T]))).chain.length := by rw [certAlong_length]; simp
      obtain ⟨last, hlast⟩ : ∃ last, (certAlong trust (Rp :: Ap :: (p ++ [T]))).chain[(certAlong trust (Rp :: Ap :: (p ++ [T]))).chain.length - 1]? = some last :=
        ⟨_, List.getElem?_eq_getElem (by omega)⟩
      have hT : last.issuedFor = T := by
        have := certAlong_get hf hlast
        rw [certAlong_length, ← List.getLast?_eq_getElem?, ← List.cons_append, ← List.cons_append, List.getLast?_concat] at this
        exact (Option.some.inj this).symm
      have := admissible_of_edges (d := d) (now := now) (c := certAlong trust (Rp :: Ap :: (p ++ [T]))) h2.healthy hlong ?_ ?_ ?_
        (certAlong_noRevisit hf hnd) ?_ hlast
      · rwa [hT] at this
      · intro t ht
        have := Option.some.inj (certAlong_get hf ht)
        rw [h2.rootFactor, ← this, Db.addRoot_rootFactor, if_pos rfl]
        rfl
      · intro k t he
        obtain ⟨b, hb, rfl⟩ := hl he
        exact (hst _).mpr ⟨k, b, hb, rfl⟩
      · intro t ht
        obtain ⟨k, he⟩ := edge_of_mem ht
        obtain ⟨b, hb, rfl⟩ := hl he
        obtain ⟨k, hk, rfl⟩ := hcl hb
        unfold Spec.Live
        rw [(htr k hk b).2.1]
        exact hlive
      · rintro _ _ _ _ _ _ _ ⟨r, hr, -⟩
        obtain ⟨_, _, -, e⟩ := (hst _).mp hr
        cases e
    have hnd : (K.permutations.map (fun p => certAlong trust (Rp :: Ap :: (p ++ [T])))).Nodup := by
      refine (List.nodup_permutations K hKn).map ?_
      intro p q e
      have := congrArg (fun c : Certificate => c.chain.map (·.issuedFor)) e
      simp only [certAlong_keys hf] at this
      simpa using this
    have := List.Subperm.length_le (List.subperm_of_subset hnd fun c hc => by
      obtain ⟨p, hp, rfl⟩ := List.mem_map.mp hc
      exact hperm p hp)
    rwa [List.length_map, List.length_permutations, hlen] at this

/-! ### What bounds the number -/

/-- All chains of `n + 1` stored trusts from a self-signed one to `k`. -/
def Db.chainsTo (db : Db) : Nat → PublicKey → List (List Trust)
  | 0, k => ((db.view.auths k).filter (fun a => a.issuedBy = k)).map (fun a => [a.trust])
  | n + 1, k => (db.view.auths k).flatMap (fun a => (db.chainsTo n a.issuedBy).map (· ++ [a.trust]))

omit [LawfulEnv] in
theorem sum_le_mul {l : List Nat} {b : Nat} (h : ∀ x ∈ l, x ≤ b) : l.sum ≤ l.length * b := by
  induction l with
  | nil => simp
  | cons a l ih =>
    have h1 := h a (.head _)
    have h2 := ih fun x hx => h x (.tail _ hx)
    rw [List.sum_cons, List.length_cons, Nat.succ_mul]
    omega

theorem Db.chainsTo_length {db : Db} (hh : db.Healthy) {d : Nat} (hd : ∀ k, (db.view.auths k).length ≤ d) (n : Nat) (k : PublicKey) :
    (db.chainsTo n k).length ≤ d ^ n := by
  induction n generalizing k with
  | zero =>
    rw [Db.chainsTo, List.length_map, Nat.pow_zero]
    by_contra h
    rcases hl : (db.view.auths k).filter (fun a => a.issuedBy = k) with _ | ⟨a, _ | ⟨b, l⟩⟩
    · rw [hl] at h; simp at h
    · rw [hl] at h; simp at h
    · have ha : a ∈ (db.view.auths k).filter (fun a => a.issuedBy = k) := by rw [hl]; simp
      have hb : b ∈ (db.view.auths k).filter (fun a => a.issuedBy = k) := by rw [hl]; simp
      have hnd : ((db.view.auths k).filter (fun a => a.issuedBy = k)).Nodup := ((Db.view_lawful hh).nodup k).filter _
      rw [hl] at hnd
      have hne : a ≠ b := fun e => (List.nodup_cons.mp hnd).1 (e ▸ .head _)
      simp only [List.mem_filter, decide_eq_true_eq, Db.mem_view_auths hh] at ha hb
      exact absurd (hh.stored_unique ha.1.1 hb.1.1 (ha.1.2.trans hb.1.2.symm) (ha.2.trans hb.2.symm)) (by simpa using hne)
  | succ n ih =>
    rw [Db.chainsTo, List.length_flatMap, Nat.pow_succ']
    refine (sum_le_mul (b := d ^ n) ?_).trans ?_
    · intro x hx
      obtain ⟨a, -, rfl⟩ := List.mem_map.mp hx
      rw [List.length_map]
      exact ih _
    · rw [List.length_map]
      exact Nat.mul_le_mul_right _ (hd k)

theorem Db.mem_chainsTo {db : Db} (hh : db.Healthy) {now : Dur} {ts : List Trust} {n : Nat} {k : PublicKey} (hlen : ts.length = n + 1)
    (hroot : ∀ t, ts[0]? = some t → (db.snapshot now).trusted t.issuedFor t)
    (hlink : ∀ (i : Nat) a b, ts[i]? = some a → ts[i + 1]? = some b → (db.snapshot now).trusted a.issuedFor b)
    (hk : ∀ t, ts[ts.length - 1]? = some t → t.issuedFor = k) : ts ∈ db.chainsTo n k := by
  induction n generalizing ts k with
  | zero =>
    obtain ⟨t, rfl⟩ := List.length_eq_one_iff.mp hlen
    have h1 := hk t rfl
    have h2 := hroot t rfl
    subst h1
    exact List.mem_map.mpr ⟨⟨t, t.issuedFor⟩, List.mem_filter.mpr ⟨(Db.mem_view_auths hh).mpr ⟨h2.1, rfl⟩, by simp⟩, rfl⟩
  | succ n ih =>
    obtain ⟨init, t, rfl⟩ : ∃ init t, ts = init ++ [t] := by
      have : ts ≠ [] := by rintro rfl; simp at hlen
      exact ⟨_, _, (List.dropLast_append_getLast this).symm⟩
    simp only [List.length_append, List.length_cons, List.length_nil, Nat.zero_add, Nat.add_right_cancel_iff] at hlen
    have hpre : ∀ {i : Nat} {a}, init[i]? = some a → (init ++ [t])[i]? = some a := fun h => by
      rw [List.getElem?_append_left (List.getElem?_eq_some_iff.mp h).1]; exact h
    have hlast : (init ++ [t])[init.length]? = some t := by simp
    have ht : t.issuedFor = k := hk t (by simp)
    obtain ⟨u, hu⟩ : ∃ u, init[init.length - 1]? = some u := ⟨_, List.getElem?_eq_getElem (by omega)⟩
    have hl := hlink (init.length - 1) u t (hpre hu) (by rw [show init.length - 1 + 1 = init.length by omega]; exact hlast)
    refine List.mem_flatMap.mpr ⟨⟨t, u.issuedFor⟩, (Db.mem_view_auths hh).mpr ⟨hl.1, ht⟩, List.mem_map.mpr ⟨init, ih hlen ?_ ?_ ?_, rfl⟩⟩
    · exact fun t' h => hroot t' (hpre h)
    · exact fun i a b ha hb => hlink i a b (hpre ha) (hpre hb)
    · intro t' h
      rw [hu] at h
      cases h
      rfl

/-- **C103** (what holds).  If nobody is trusted by more than `d` keys, a key has at most `d^n` certificates with `n` trusts after the root's. -/
theorem C103_bound_partial {db db' : Db} {target : PublicKey} {now : Dur} {cs : List Certificate} {d : Nat} (hr : Reachable db)
    (hd : ∀ k (l : List Auth), l.Nodup → (∀ a ∈ l, db.Stored (.auth a) ∧ a.trust.issuedFor = k) → l.length ≤ d)
    (h : TrustGraph.getAllCerts target now db = (.ok cs, db')) (n : Nat) : (cs.filter (fun c => c.chain.length = n + 1)).length ≤ d ^ n := by
  have hh := hr.healthy
  obtain ⟨h1, h2⟩ := C02_complete_exactly_once hh h
  have hd' : ∀ k, (db.view.auths k).length ≤ d := fun k => hd k _ ((Db.view_lawful hh).nodup k) fun a ha => (Db.mem_view_auths hh).mp ha
  refine le_trans ?_ (Db.chainsTo_length hh hd' n target)
  rw [← List.length_map (f := fun c : Certificate => c.chain)]
  apply List.Subperm.length_le
  apply List.subperm_of_subset
  · refine (h1.filter _).map ?_
    intro c c' e
    cases c; cases c'; cases e; rfl
  · intro ts hts
    obtain ⟨c, hc, rfl⟩ := List.mem_map.mp hts
    obtain ⟨hc, hlen⟩ := List.mem_filter.mp hc
    have hl := ((h2 c).mp hc).linked
    exact Db.mem_chainsTo hh (by simpa using hlen) (fun t ht => (hl.root t ht).2) hl.link hl.target

end TG
