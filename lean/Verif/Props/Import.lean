/-
Property C82: importing certificates.
-/
import Verif.Proofs.Bundle
import Verif.Props.NoOverflow

namespace TG
variable [Env]

/-- **C82.** A certificate whose trusts are valid, live and not outdated, whose root is registered with a `max_chain_len` of at least the number of
trusts after the root trust, is imported by `add`: the call succeeds, and afterwards `get_all_certs` of its last key returns it, at any time at which its
trusts live; its weight counts. -/
theorem C82_import {db : Db} {c : Certificate} {now : Dur} (hr : Reachable db) (hf : db.NoFaults) (hc : Spec.Importable db c now)
    (hn : db.relations.length + c.chain.length + 16 < 2 ^ 32) :
    ∃ db', TrustGraph.add c now db = (.ok (), db') ∧
      ∀ last, c.chain.getLast? = some last → ∀ later : Dur, (∀ t ∈ c.chain, Spec.Live t later) →
        (∃ cs s, TrustGraph.getAllCerts last.issuedFor later db' = (.ok cs, s) ∧ c ∈ cs) ∧
        (∃ w s, TrustGraph.weight last.issuedFor later db' = (.ok w, s) ∧ db.certWeight c ≤ w) := by
  obtain ⟨d, h1, h2⟩ := import_add hr.healthy hf hc hn
  have h3 := h2.imported hc
  refine ⟨d, h1, fun last hl later hlive => ?_⟩
  rw [List.getLast?_eq_getElem?] at hl
  have ha := h3.admissible (.head _) hc hlive hl
  refine ⟨⟨_, _, Db.getAllCerts_eq h3.healthy h3.noFaults _ _, (Db.mem_certs_iff h3.healthy _ _ _).mpr ha⟩, ?_⟩
  have hlen := h2.length
  obtain ⟨w, hw, hg⟩ := Db.weight_spec h3.healthy h3.noFaults (by omega) last.issuedFor later
  refine ⟨w, _, hw, ?_⟩
  rw [← Db.certWeight_congr h3.roots (rfl : c.keys = c.keys)]
  exact hg.2 (.inr (.inr ⟨c, ha, rfl⟩))

/-- **C82**, what else changes: the roots stay, relations between other pairs of keys stay (except trusts that have expired), and nothing but the trusts
of the certificate is added. -/
theorem C82_import_exactly {db db' : Db} {c : Certificate} {now : Dur} (hr : Reachable db) (hf : db.NoFaults)
    (hc : Spec.Importable db c now) (hn : db.relations.length + c.chain.length + 16 < 2 ^ 32)
    (h : TrustGraph.add c now db = (.ok (), db')) :
    db'.roots = db.roots ∧ ∀ r, db'.Stored r ↔
      (∃ k t, Spec.Edge c.chain k t ∧ r = .auth ⟨t, k⟩) ∨
      (db.Stored r ∧ (∀ a, r = .auth a → Spec.Live a.trust now) ∧ ∀ k t, Spec.Edge c.chain k t → ¬ r.SamePair (.auth ⟨t, k⟩)) := by
  obtain ⟨d, h1, h2⟩ := import_add hr.healthy hf hc hn
  rw [h1] at h
  cases h
  have h3 := h2.imported hc
  refine ⟨h3.roots, fun r => ?_⟩
  have := h3.stored r
  simpa only [List.mem_singleton, exists_eq_left, forall_eq] using this

/-- **C82** for several certificates that agree on the trusts they share: all of them are in force together, whatever the order. -/
theorem C82_import_all {db : Db} {cs : List (Certificate × Dur)} (hr : Reachable db) (hf : db.NoFaults) (hb : Spec.Bundle db cs)
    (hn : db.relations.length + (cs.map (·.1.chain.length)).sum + 16 < 2 ^ 32) :
    ∃ db', addAll cs db = (.ok (), db') ∧ ∀ p ∈ cs, ∀ last, p.1.chain.getLast? = some last →
      ∀ later : Dur, (∀ t ∈ p.1.chain, Spec.Live t later) →
        ∃ cs' s, TrustGraph.getAllCerts last.issuedFor later db' = (.ok cs', s) ∧ p.1 ∈ cs' := by
  obtain ⟨d, h1, h2⟩ := import_addAll hr.healthy hf hb hn
  refine ⟨d, h1, fun p hp last hl later hlive => ?_⟩
  rw [List.getLast?_eq_getElem?] at hl
  exact ⟨_, _, Db.getAllCerts_eq h2.healthy h2.noFaults _ _,
    (Db.mem_certs_iff h2.healthy _ _ _).mpr (h2.admissible hp (hb.each p hp p hp) hlive hl)⟩

end TG
