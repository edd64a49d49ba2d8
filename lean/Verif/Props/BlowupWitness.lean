/-
C103: examples in the toy environment.
-/
import Verif.Props.Blowup
import Verif.Props.Cost
import Verif.Props.Statements
import Verif.Props.CertsWitness

namespace TG.BlowupDemo
open TG.Toy
set_option maxRecDepth 100000

/-- The attacker's further keys. -/
def ks : List KeyPair := (List.range 40).map (fun n => kp (n + 3))

/-- The key of a public key. -/
def find (a : PublicKey) : KeyPair := (((List.range 43).map kp).find? (fun k => k.pub = a)).getD (kp 0)

/-- The trusts, valid until 1000. -/
def trust (a b : PublicKey) : Trust := Trust.new b (s 1000) (s 1) (signature (find a) (Trust.signatureBytes b (s 1000) (s 1)))

theorem ks_facts : ks.length = 40 ∧ (pk 0 :: (kp 1 :: kp 2 :: ks).map (·.pub)).Nodup ∧ ∀ k ∈ kp 1 :: kp 2 :: ks, find k.pub = k := by decide +kernel

/-- C103: root 1 trusts 2, whose owner makes 40 keys: key 0 gets more than 10⁴⁷ certificates out of at most 1642 relations. -/
example : ∃ cs d, (TrustGraph.setRoot (pk 1) 5 >>= fun _ => addAll cs) Db.empty = (.ok (), d) ∧ d.relations.length ≤ 1642 ∧
    ∃ certs s', TrustGraph.getAllCerts (pk 0) (s 10) d = (.ok certs, s') ∧ 10 ^ 47 ≤ certs.length := by
  obtain ⟨h1, h2, h3⟩ := ks_facts
  obtain ⟨cs, d, h4, -, h5, certs, s', h6, h7⟩ := C103_blowup_fails (R := kp 1) (A := kp 2) (ks := ks) (T := pk 0) (e := s 1000) (i := s 1) (now := s 10) (m := 5)
    (trust := trust) (by decide +kernel) h2 (fun _ _ => rfl) (by
      intro k hk b
      have e : trust k.pub b = Trust.new b (s 1000) (s 1) (signature k (Trust.signatureBytes b (s 1000) (s 1))) := by
        unfold trust
        rw [h3 k hk]
      rw [e]
      obtain ⟨n, rfl⟩ : ∃ n, k = kp n := by
        rcases List.mem_cons.mp hk with rfl | hk
        · exact ⟨_, rfl⟩
        rcases List.mem_cons.mp hk with rfl | hk
        · exact ⟨_, rfl⟩
        obtain ⟨n, -, rfl⟩ := List.mem_map.mp hk
        exact ⟨_, rfl⟩
      rfl) (by decide) (by decide) (by decide) (by decide) (by rw [h1]; decide)
  rw [h1] at h5 h7
  exact ⟨cs, d, h4, h5, certs, s', h6, le_trans (by decide +kernel) h7⟩

theorem demo_facts : (∀ row ∈ Demo.db.relations, (Demo.db.relations.filter (fun r => r.issuedFor = row.issuedFor)).length ≤ 3) ∧
    (match TrustGraph.getAllCerts (pk 4) (s 10) Demo.db with
      | (.ok cs, _) => decide ((cs.filter (fun c => c.chain.length = 3 + 1)).length = 2)
      | _ => false) = true ∧ Demo.db.relations.length = 8 := by decide +kernel

/-- In the demonstration network no key is trusted by more than three. -/
theorem degree (k : PublicKey) (l : List Auth) (hl : l.Nodup) (hk : ∀ a ∈ l, Demo.db.Stored (.auth a) ∧ a.trust.issuedFor = k) : l.length ≤ 3 := by
  rcases l with _ | ⟨a, l⟩
  · simp
  have ha := hk a (.head _)
  refine le_trans ?_ (demo_facts.1 _ ha.1.2)
  rw [← List.length_map (f := fun a => Sqlite.toRow (.auth a))]
  apply List.Subperm.length_le
  apply List.subperm_of_subset
  · refine List.Nodup.map_on ?_ hl
    intro x hx y hy e
    exact TrustRelation.auth.inj (toRow_inj (hk x hx).1.1 (hk y hy).1.1 e)
  · intro row hrow
    obtain ⟨b, hb, rfl⟩ := List.mem_map.mp hrow
    have := hk b hb
    refine List.mem_filter.mpr ⟨this.1.2, ?_⟩
    simp [toRow_issuedFor, TrustRelation.issuedFor, this.2, ha.2]

/-- Key 4 has two certificates with three trusts after the root's. -/
example : ∃ cs s', TrustGraph.getAllCerts (pk 4) (s 10) Demo.db = (.ok cs, s') ∧ (cs.filter (fun c => c.chain.length = 3 + 1)).length = 2 ∧
    (cs.filter (fun c => c.chain.length = 3 + 1)).length ≤ 3 ^ 3 := by
  have h := demo_facts.2.1
  rcases hc : TrustGraph.getAllCerts (pk 4) (s 10) Demo.db with ⟨cs | _ | _ | _, s'⟩
  all_goals rw [hc] at h
  · exact ⟨cs, s', rfl, of_decide_eq_true h, C103_bound_partial Demo.reachable degree hc 3⟩
  all_goals exact absurd h (by simp)

/-- A success after which just the failing statement is left. -/
def justDone {α : Type} : Outcome TrustGraphError α × Db → Bool
  | (.ok _, d) => decide (d.faults = [true])
  | _ => false

theorem demo_cost : justDone (TrustGraph.getAllCerts (pk 4) (s 10) { Demo.db with faults := List.replicate 27 false ++ [true] }) = true := by decide +kernel

/-- How the number of statements can be observed. -/
theorem observed {α : Type} {x : M Db TrustGraphError α} {db db' : Db} {cost n : Nat} {a : α}
    (h4 : ∀ fs, x { db with faults := List.replicate cost false ++ fs } = (.ok a, { db' with faults := fs }))
    (h5 : ∀ n < cost, ∀ fs, (x { db with faults := List.replicate n false ++ true :: fs }).1 = .err .internalStorageError)
    (hd : justDone (x { db with faults := List.replicate n false ++ [true] }) = true) : cost = n := by
  rcases Nat.lt_trichotomy cost n with h | h | h
  · have := h4 (List.replicate (n - cost) false ++ [true])
    rw [← List.append_assoc, ← List.replicate_add, Nat.add_sub_cancel' (by omega)] at this
    rw [this] at hd
    have := congrArg List.length (of_decide_eq_true hd)
    simp only [List.length_append, List.length_replicate, List.length_singleton] at this
    omega
  · exact h
  · have := h5 n h []
    rcases hx : x { db with faults := List.replicate n false ++ [true] } with ⟨o, s⟩
    rw [hx] at this hd
    simp only at this
    rw [this] at hd
    cases hd

/-- The question for the certificates of key 4 executes 27 statements. -/
example : ∃ trails : List (List Auth), trails.Nodup ∧ (∀ l, l ∈ trails ↔ Spec.Trail (Demo.db.snapshot (s 10)) (pk 4) l) ∧
    27 + (trails.filter (fun l => l.length = 1)).length = 4 + 2 * trails.length := by
  obtain ⟨trails, cost, cs, h1, h2, h3, h4, h5⟩ := C103_statements Demo.reachable (pk 4) (s 10)
  obtain rfl := observed h4 h5 demo_cost
  exact ⟨trails, h1, h2, h3⟩

/-- A bound for it from the number of stored trusts and revocations. -/
example : ∃ (cost : Nat) (cs : List Certificate), cost ≤ 4 + 2 * ((List.range 8).map (fun k => 3 ^ (k + 1))).sum ∧
    ∀ fs, (TrustGraph.getAllCerts (pk 4) (s 10)) { Demo.db with faults := List.replicate cost false ++ fs } = (.ok cs, { Demo.db.collect (s 10) with faults := fs }) :=
  C103_statements_partial Demo.reachable degree fun _ hl => demo_facts.2.2 ▸ trail_length Demo.reachable hl

/-- C103: key 4 has at least three certificates, and the failure of the third statement is noticed by a query for its weight. -/
example : ∃ cs s', TrustGraph.getAllCerts (pk 4) (s 10) Demo.db = (.ok cs, s') ∧ 2 < cs.length ∧
    (TrustGraph.weight (pk 4) (s 10) { Demo.db with faults := [false, false, true] }).1 = .err .internalStorageError := by
  have h : (match TrustGraph.getAllCerts (pk 4) (s 10) Demo.db with
        | (.ok cs, _) => decide (2 < cs.length)
        | _ => false) = true := by decide +kernel
  rcases hc : TrustGraph.getAllCerts (pk 4) (s 10) Demo.db with ⟨cs | _ | _ | _, s'⟩
  all_goals rw [hc] at h
  · have h2 := of_decide_eq_true h
    exact ⟨cs, s', rfl, h2, (C103_cost (issuer := pk 1) Demo.reachable (.inl rfl) hc h2 rfl).2.2.1⟩
  all_goals exact absurd h (by simp)

end TG.BlowupDemo
