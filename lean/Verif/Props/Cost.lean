/-
C103: what a query costs.
-/
import Verif.Props.NoOverflow
import Verif.Props.Machine
import Verif.Props.Blowup
import Verif.Proofs.Cost

namespace TG
variable [Env]
open Nat

omit [Env] in
/-- If the `N + 1`-st statement is the first that fails, and more than `N` are executed, the failure is reported. -/
theorem reaches_fault {α : Type} {x : M Db TrustGraphError α} (hs : FailStop IsInternal x) {d : Db} (hret : Returns (x d).1) {N k : Nat} (hN : N < k)
    (hd : d.faults = List.replicate N false ++ [true]) (hc : ∀ a s, x d = (.ok a, s) → s.faults = [] ∨ s.faults.length + k ≤ d.faults.length) :
    (x d).1 = .err .internalStorageError := by
  rcases hret with ⟨a, ha⟩ | h
  · exfalso
    rcases hx : x d with ⟨o, s⟩
    have hx' := hx
    rw [hx] at ha
    cases ha
    have hnil : s.faults = [] := by
      rcases hc a s hx with h | h
      · exact h
      · rw [hd] at h
        simp only [List.length_append, List.length_replicate, List.length_singleton] at h
        exact List.eq_nil_of_length_eq_zero (by omega)
    rcases hs d with ⟨n, hn⟩ | ⟨n, -, e, he, -⟩
    · rw [hx, hd, hnil, List.append_nil] at hn
      have : true ∈ List.replicate n false := hn ▸ List.mem_append_right _ (.head _)
      simp at this
    · rw [hx] at he
      cases he
  · exact h

/-- **C103** (what a query costs).  Everything that has to do with the weight or the certificates of a key executes at least as many SQL statements as the key has
certificates: if `N` is less than this number, the failure of the `N + 1`-st statement is noticed. -/
theorem C103_cost {db s : Db} {target issuer : PublicKey} {now : Dur} {cs : List Certificate} (hr : Reachable db) (hb : db.Bounded 0)
    (h : TrustGraph.getAllCerts target now db = (.ok cs, s)) {N : Nat} (hN : N < cs.length) {d : Db} (hd : d = { db with faults := List.replicate N false ++ [true] }) :
    (TrustGraph.getAllCerts target now d).1 = .err .internalStorageError ∧
    (TrustGraph.getAllCertsFrom target issuer now d).1 = .err .internalStorageError ∧
    (TrustGraph.weight target now d).1 = .err .internalStorageError ∧
    (TrustGraph.weightFrom target issuer now d).1 = .err .internalStorageError ∧
    ∀ t, t.verify target now = .ok () → (TrustGraph.addTrust t target now d).1 = .err .internalStorageError := by
  have hdh : d.Healthy := by rw [hd]; exact ⟨hr.healthy.rows, hr.healthy.unique, hr.healthy.roots⟩
  have hdb : d.Bounded 0 := by rw [hd]; exact hb
  have hdf : d.faults = List.replicate N false ++ [true] := by rw [hd]
  have hcs : d.certs target now = cs := by
    rw [getAllCerts_ok hr.healthy h, hd]
    rfl
  have key : ∀ {d' : Db} {cs' s}, d'.calm = d.calm → TrustGraph.getAllCerts target now d' = (.ok cs', s) →
      s.faults = [] ∨ s.faults.length + cs.length ≤ d'.faults.length := by
    intro d' cs' s hd' hx
    have hh' : d'.Healthy := by
      have : d'.calm.Healthy := by rw [hd']; exact hdh.calm
      exact ⟨this.rows, this.unique, this.roots⟩
    have e : cs' = cs := by
      rw [getAllCerts_ok hh' hx, ← hcs]
      show d'.calm.certs target now = d.calm.certs target now
      rw [hd']
    rw [← e]
    exact getAllCerts_costs target now _ _ _ hx
  have chain : ∀ {a b c : Db} {k : Nat}, (b.faults = [] ∨ b.faults.length + k ≤ a.faults.length) → (c.faults = [] ∨ c.faults.length ≤ b.faults.length) →
      c.faults = [] ∨ c.faults.length + k ≤ a.faults.length := by
    intro a b c k h1 h2
    rcases h2 with h2 | h2
    · exact .inl h2
    rcases h1 with h1 | h1
    · rw [h1] at h2
      exact .inl (List.eq_nil_of_length_eq_zero (Nat.le_zero.mp h2))
    · exact .inr (by omega)
  have chain' : ∀ {a b c : Db} {k : Nat}, (b.faults = [] ∨ b.faults.length ≤ a.faults.length) → (c.faults = [] ∨ c.faults.length + k ≤ b.faults.length) →
      c.faults = [] ∨ c.faults.length + k ≤ a.faults.length := by
    intro a b c k h1 h2
    rcases h2 with h2 | h2
    · exact .inl h2
    rcases h1 with h1 | h1
    · rw [h1] at h2
      simp only [List.length_nil] at h2
      exact .inl (List.eq_nil_of_length_eq_zero (by omega))
    · exact .inr (by omega)
  have hfrom : ∀ {a s}, TrustGraph.getAllCertsFrom target issuer now d = (.ok a, s) → s.faults = [] ∨ s.faults.length + cs.length ≤ d.faults.length := by
    intro a s hx
    unfold TrustGraph.getAllCertsFrom at hx
    obtain ⟨c, s1, h1, h2⟩ := M.bind_ok_inv hx
    cases h2
    exact key rfl h1
  have hw : ∀ {a s}, TrustGraph.weight target now d = (.ok a, s) → s.faults = [] ∨ s.faults.length + cs.length ≤ d.faults.length := by
    intro a s hx
    unfold TrustGraph.weight at hx
    obtain ⟨r, s1, h1, h2⟩ := M.bind_ok_inv hx
    obtain ⟨c, s2, h3, h4⟩ := M.bind_ok_inv h2
    obtain ⟨f, s3, h5, h6⟩ := M.bind_ok_inv h4
    have e1 : s3 = s := by cases f <;> cases h6 <;> rfl
    subst e1
    have e2 : s1.calm = d.calm := by
      have := getRootWeightFactor_steps quiet_calm target d
      rw [show Sqlite.getRootWeightFactor target d = _ from storage_ok_inv h1] at this
      exact this
    refine chain (chain' (k := cs.length) (Costs.of_failStop (TrustGraph.storage_failStop (getRootWeightFactor_failStop target)) _ _ _ h1) (key e2 h3))
      (Costs.of_failStop (TrustGraph.certificatesWeightFactor_failStop c) _ _ _ h5)
  refine ⟨?_, ?_, ?_, ?_, ?_⟩
  · exact reaches_fault (TrustGraph.getAllCerts_failStop _ _) (C04_search_returns hdh target issuer now).1 hN hdf fun a s hx => key rfl hx
  · exact reaches_fault (TrustGraph.getAllCertsFrom_failStop _ _ _) (C04_search_returns hdh target issuer now).2 hN hdf fun a s hx => hfrom hx
  · exact reaches_fault (TrustGraph.weight_failStop _ _) (C04_weight_returns hdh hdb target issuer now).1 hN hdf fun a s hx => hw hx
  · refine reaches_fault (TrustGraph.weightFrom_failStop _ _ _) (C04_weight_returns hdh hdb target issuer now).2 hN hdf fun a s hx => ?_
    unfold TrustGraph.weightFrom at hx
    obtain ⟨c, s1, h1, h2⟩ := M.bind_ok_inv hx
    obtain ⟨f, s2, h3, h4⟩ := M.bind_ok_inv h2
    have e1 : s2 = s := by cases f <;> cases h4 <;> rfl
    subst e1
    exact chain (hfrom h1) (Costs.of_failStop (TrustGraph.certificatesWeightFactor_failStop c) _ _ _ h3)
  · intro t ht
    have := reaches_fault (TrustGraph.weight_failStop _ _) (C04_weight_returns hdh hdb target issuer now).1 hN hdf fun a s hx => hw hx
    rcases hx : TrustGraph.weight target now d with ⟨o, s1⟩
    rw [hx] at this
    cases this
    unfold TrustGraph.addTrust TrustGraph.getNextWeight
    rw [ht, Outcome.mapErr, M.bind_run_ok (x := M.lift (.ok ())) (s' := d) (a := ()) rfl, M.bind_run_err (M.bind_run_err hx)]

end TG
