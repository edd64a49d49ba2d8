/-
Property C149: what a revocation that the service has taken in cuts off.
-/
import Verif.Props.ExportService

namespace TG
open Spec SqlStorage

variable [LawfulEnv]

/-- **C149.**  Let `revoke` have succeeded with a revocation, and let all else that was submitted about its two keys be older.  Then in whatever the service answers:
on no certificate does the revoker stand before the revoked key, unless the revoked key is the issuer of the last trust; no certificate of the revoked key passes through the
revoker; and when asked about the revoked key by way of the revoker, the service answers with no certificates and with weight 0. -/
theorem C149_cut_off {faulty : Prop} {tr : List Event} {cp : CallParams} {c : Call} {r : Res Payload} {x : Revocation} {i : Option Instance} {f : Sql.File}
    (hw : Env.wasm = true) (h : ServiceRun faulty (tr ++ [.call cp c (.ok r)]) i f) (hn : offeredIn tr + 16 < 2 ^ 32) (hx : Took tr (.revocation x))
    (hq : ∀ op q, Made tr op → op.Submits q → q.SamePair (.revocation x) → q ≠ .revocation x → q.issuedAt.total < x.revokedAt.total) :
    (∀ ds d, r.payload = .certs ds → d ∈ ds → ∀ (j k : Nat) a b, j < k → d.chain[j]? = some a → d.chain[k]? = some b →
      Names a.issuedFor x.revokedBy → Names b.issuedFor x.pk → k + 2 = d.chain.length) ∧
    (∀ ds d, r.payload = .certs ds → d ∈ ds → ∀ last, d.chain.getLast? = some last → Names last.issuedFor x.pk →
      ∀ a ∈ d.chain.dropLast, ¬ Names a.issuedFor x.revokedBy) ∧
    (∀ p q t, Names p x.pk → Names q x.revokedBy → x.pk ≠ x.revokedBy →
      (c = .getAllCertsFrom p q t → r.payload = .certs []) ∧ (c = .getWeightFrom p q t → ∀ w y, r.payload = .weight w y → w = 0)) := by
  obtain ⟨z, hz, -⟩ := C125_library h
  obtain ⟨m, h1, h2⟩ := hz.split _ _ rfl
  have hrm := h1.reachable .init
  have hnm := h1.length .init (by show 0 + _ + 16 < _; omega)
  rw [show (⟨[], [], []⟩ : Db).relations.length = 0 from rfl] at hnm
  have hrev : ∀ now, (m.snapshot now).revoked x.revokedBy x.pk := fun now => ⟨x, Took.storedRevocation h1 hx hq, rfl, rfl⟩
  -- what holds of admissible certificates
  have before : ∀ {X : PublicKey} {now : Dur} {c : Certificate}, Admissible (m.snapshot now) X c → ∀ (j k : Nat) a b, j < k →
      (Dto.ofCertificate c).chain[j]? = some a → (Dto.ofCertificate c).chain[k]? = some b → Names a.issuedFor x.revokedBy → Names b.issuedFor x.pk →
      k + 2 = (Dto.ofCertificate c).chain.length := by
    intro X now c hc j k a b hjk ha hb hna hnb
    obtain ⟨t, ht, rfl⟩ := List.getElem?_map .. ▸ ha |> Option.map_eq_some_iff.mp
    obtain ⟨u, hu, rfl⟩ := List.getElem?_map .. ▸ hb |> Option.map_eq_some_iff.mp
    have e1 : t.issuedFor = x.revokedBy := (names_toPeerId hw _).unique hna
    have e2 : u.issuedFor = x.pk := (names_toPeerId hw _).unique hnb
    by_contra hne
    refine hc.unrevoked j k t u hjk ht hu (fun e => hne ?_) (by rw [e1, e2]; exact hrev now)
    rw [e]
    exact (List.length_map ..).symm
  have all : ∀ {X now s cs fs}, TrustGraph.getAllCerts X now { m with faults := fs } = (.ok cs, s) → ∀ c ∈ cs, Admissible (m.snapshot now) X c :=
    fun {_ _ _ _ fs} e c hc => ((C02_complete_exactly_once (hrm.weather fs).healthy e).2 c).mp hc
  have some' : ∀ {X Y now s cs fs}, TrustGraph.getAllCertsFrom X Y now { m with faults := fs } = (.ok cs, s) →
      ∀ c ∈ cs, Admissible (m.snapshot now) X c ∧ ∃ t ∈ c.chain, t.issuedFor = Y := by
    intro X Y now s cs fs e c hc
    obtain ⟨all, _, h1, rfl⟩ := C09_from_selects_partial (hrm.weather fs).healthy e
    obtain ⟨h3, h4⟩ := List.mem_filter.mp hc
    exact ⟨((C02_complete_exactly_once (hrm.weather fs).healthy.calm h1).2 c).mp h3, of_decide_eq_true h4⟩
  -- none of those of the revoked key goes through the revoker
  have none' : ∀ {now : Dur} {c : Certificate}, x.pk ≠ x.revokedBy → Admissible (m.snapshot now) x.pk c → ∀ t ∈ c.chain, t.issuedFor ≠ x.revokedBy := by
    intro now c hne hc t ht e
    obtain ⟨j, hj, rfl⟩ := List.mem_iff_getElem.mp ht
    have hlast := hc.linked.target (c.chain[c.chain.length - 1]'(by omega)) (List.getElem?_eq_getElem _)
    have hlt : j < c.chain.length - 1 := by
      rcases Nat.lt_or_ge j (c.chain.length - 1) with hlt | hge
      · exact hlt
      · have : j = c.chain.length - 1 := by omega
        subst this
        exact absurd (hlast.symm.trans e) hne
    exact hc.unrevoked j (c.chain.length - 1) _ _ hlt (List.getElem?_eq_getElem hj) (List.getElem?_eq_getElem (by omega)) (by omega)
      (by rw [e, hlast]; exact hrev now)
  have certs : ∀ ds d, r.payload = .certs ds → d ∈ ds → ∃ X now c', Admissible (m.snapshot now) X c' ∧ d = Dto.ofCertificate c' := by
    intro ds d hds hd
    rcases h2.single with ⟨y, hy, rfl⟩ | ⟨-, hp⟩ | ⟨op, fs, fs', a, s, -, hm, hcall, rfl, -⟩
    · cases hy <;> cases hds
    · rw [hds] at hp
      cases c <;> cases hp <;> cases hd
    · cases hm <;> obtain ⟨y, e, rfl⟩ := M.bind_pure_ok hcall <;> try (cases hds; done)
      all_goals
        cases hds
        obtain ⟨c', hc', rfl⟩ := List.mem_map.mp hd
        first
        | exact ⟨_, _, c', all e c' hc', rfl⟩
        | exact ⟨_, _, c', (some' e c' hc').1, rfl⟩
  refine ⟨?_, ?_, ?_⟩
  · intro ds d hds hd
    obtain ⟨X, now, c', hc', rfl⟩ := certs ds d hds hd
    exact before hc'
  · intro ds d hds hd last hl hlK a ha haR
    obtain ⟨X, now, c', hc', rfl⟩ := certs ds d hds hd
    obtain ⟨j, hj, rfl⟩ := List.mem_iff_getElem.mp ha
    rw [List.length_dropLast] at hj
    rw [List.getLast?_eq_getElem?] at hl
    have := before hc' j ((Dto.ofCertificate c').chain.length - 1) _ last hj (List.getElem?_eq_getElem (by omega)) hl (by rw [List.getElem_dropLast] at haR; exact haR) hlK
    omega
  · intro p q t hp hq hne
    constructor
    · rintro rfl
      rcases h2.single with ⟨y, hy, rfl⟩ | ⟨-, hp⟩ | ⟨op, fs, fs', a, s, -, hm, hcall, rfl, -⟩
      · cases hy
      · exact hp
      · cases hm with
        | getAllCertsFrom h3 h4 =>
          cases h3.unique hp
          cases h4.unique hq
          obtain ⟨cs, e, rfl⟩ := M.bind_pure_ok hcall
          cases cs with
          | nil => rfl
          | cons c' cs =>
            obtain ⟨h5, t', h6, h7⟩ := some' e c' (by simp)
            exact absurd h7 (none' hne h5 t' h6)
    · rintro rfl w y hwy
      rcases h2.single with ⟨y, hy, rfl⟩ | ⟨-, hp⟩ | ⟨op, fs, fs', a, s, -, hm, hcall, rfl, -⟩
      · cases hy
      · rw [hwy] at hp
        cases hp
        rfl
      · cases hm with
        | getWeightFrom h3 h4 =>
          cases h3.unique hp
          cases h4.unique hq
          obtain ⟨w', e, rfl⟩ := M.bind_pure_ok hcall
          cases hwy
          obtain ⟨v, e', -⟩ := Db.weight_spec hrm.healthy.calm (Db.calm_noFaults m) (by show m.relations.length + 16 < _; omega) x.pk (.ofSecs t)
          have e2 := (TrustGraph.weightFrom_transparent x.pk x.revokedBy (.ofSecs t)).ok e
          have hg := (C13_weight_from_le_weight hrm.healthy.calm (by show m.relations.length + 16 < _; omega) e' e2).1.1
          rcases hg with h0 | ⟨c', h5, ⟨t', h6, h7⟩, -⟩
          · exact h0
          · exact absurd h7 (none' hne h5 t' h6)

end TG
