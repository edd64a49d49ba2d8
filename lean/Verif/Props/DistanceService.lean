/-
Property C139, through the service.
-/
import Verif.Props.CompareService
import Verif.Props.Distance

namespace TG
open Spec SqlStorage

section
variable [Env]

/-- Trust leads from a root to the key, and of the weight of the root `2^e` is left: `roots` are the roots with the logarithms of their weights, `counts` the trusts that count. -/
inductive Spec.LedBy (roots : PublicKey → Nat → Prop) (counts : Auth → Prop) : PublicKey → Nat → Prop
  /-- A root that has signed for itself. -/
  | root {k : PublicKey} {e : Nat} {t : Trust} : roots k e → t.issuedFor = k → counts ⟨t, k⟩ → Spec.LedBy roots counts k e
  /-- Whom trust leads to may trust somebody, who gets half of the weight, but at least 1. -/
  | step {a : PublicKey} {e : Nat} {t : Trust} : Spec.LedBy roots counts a e → counts ⟨t, a⟩ → Spec.LedBy roots counts t.issuedFor (e - 1)

/-- Roots and their factors come from the calls. -/
theorem Later.rootFactors {P : Op → Prop} {db : Db} (hl : Later P ⟨[], [], []⟩ db) (k : PublicKey) (f : Nat) (hf : db.rootFactor k = some f) :
    ∃ n, P (.setRoot k n) ∧ f = 16 - min 16 n := by
  suffices hs : ∀ {d0 : Db}, Later P d0 db → (∀ k f, d0.rootFactor k = some f → ∃ n, P (.setRoot k n) ∧ f = 16 - min 16 n) →
      ∀ k f, db.rootFactor k = some f → ∃ n, P (.setRoot k n) ∧ f = 16 - min 16 n from
    hs hl (fun k f h => by cases h) k f hf
  clear hl hf
  intro d0 hl h0
  have hQ : Quiet (fun d d' : Db => (∀ k f, d.rootFactor k = some f → ∃ n, P (.setRoot k n) ∧ f = 16 - min 16 n) →
      ∀ k f, d'.rootFactor k = some f → ∃ n, P (.setRoot k n) ∧ f = 16 - min 16 n) :=
    ⟨fun _ h => h, fun _ _ _ h1 h2 h => h2 (h1 h), fun _ _ h => h⟩
  revert h0
  induction hl with
  | refl => exact fun h => h
  | weather fs _ ih => exact hQ.trans _ _ _ ih (hQ.faults _ fs)
  | @step d op hok _ ih =>
    refine hQ.trans _ _ _ ih (Op.run_steps hQ op (fun _ _ _ h => h) (fun _ _ _ _ _ _ h => h) ?_ d)
    rintro pk n rfl d h k f hk
    rw [Db.rootFactor_addRoot] at hk
    split at hk
    · next hc =>
      cases hk
      rw [hc.1]
      exact ⟨n, hok, by show 16 - n = _; omega⟩
    · exact h k f hk

end

variable [LawfulEnv]

/-- **C139**, through the service: how much a peer can weigh.  If `get_weight` answers with more than 0, then the peer was set as a root and this is its weight as such, or trusts
that were submitted and had not expired lead from a root to the peer, and this is what is left of the weight of the root on the way. -/
theorem C139_service_at_most {faulty : Prop} {tr : List Event} {cp : CallParams} {p : Str} {K : PublicKey} {t : UInt64} {r : Res Payload} {w : Nat}
    {i : Option Instance} {f : Sql.File} (h : ServiceRun faulty (tr ++ [.call cp (.getWeight p t) (.ok r)]) i f)
    (hn : offeredIn tr + 16 < 2 ^ 32) (hK : Names p K) (hr : r.payload = .weight w p) (h0 : 0 < w) :
    (∃ n, Made tr (.setRoot K n) ∧ w = 2 ^ min 16 n) ∨
    ∃ e, LedBy (fun k e => ∃ n, Made tr (.setRoot k n) ∧ e = min 16 n) (fun a => (∃ op, Made tr op ∧ op.Submits (.auth a)) ∧ Live a.trust (.ofSecs t)) K e ∧ w = 2 ^ e := by
  obtain ⟨z, hz, -⟩ := C125_library h
  obtain ⟨m, h1, h2⟩ := hz.split _ _ rfl
  have hlen : m.relations.length ≤ 0 + offeredIn tr := h1.length .init (by show 0 + _ + 16 < _; omega)
  rcases h2.single with ⟨x, hx, -⟩ | ⟨-, hx⟩ | ⟨op, fs, fs', a, s, hal, hmean, hcall, rfl, -⟩
  · cases hx
  · rw [hr] at hx
    cases hx
    cases h0
  cases hmean with
  | getWeight hX =>
  cases hX.unique hK
  obtain ⟨v, e, rfl⟩ := M.bind_pure_ok hcall
  cases hr
  have hlat := h1.later.weather fs
  have hre := (h1.reachable .init).weather fs
  obtain ⟨ops, h6, h7⟩ := hlat.history
  have led : ∀ k n, Led ({ m with faults := fs } : Db) (.ofSecs t) k n →
      LedBy (fun k e => ∃ n, Made tr (.setRoot k n) ∧ e = min 16 n) (fun a => (∃ op, Made tr op ∧ op.Submits (.auth a)) ∧ Live a.trust (.ofSecs t)) k (16 - n) := by
    have stated : ∀ k x, (({ m with faults := fs } : Db).snapshot (.ofSecs t)).trusted k x →
        ∃ y : Trust, y.issuedFor = x.issuedFor ∧ (∃ op, Made tr op ∧ op.Submits (.auth ⟨y, k⟩)) ∧ Live y (.ofSecs t) := by
      intro k x hx
      obtain ⟨op, ho, q, hq, hv, he⟩ := (C72_provenance h6).1 _ hx.1
      cases q with
      | revocation => cases he
      | auth b =>
        cases he
        exact ⟨b.trust, rfl, ⟨op, h7 op ho, hq, hv⟩, hx.2⟩
    intro k n hk
    induction hk with
    | root hf he ht =>
      obtain ⟨n, hm, rfl⟩ := Later.rootFactors hlat _ _ hf
      obtain ⟨y, hy, hc⟩ := stated _ _ ht
      exact .root ⟨n, hm, by omega⟩ (hy.trans he) hc
    | @step a n x _ ht ih =>
      obtain ⟨y, hy, hc⟩ := stated _ _ ht
      have := LedBy.step ih hc
      rwa [hy, show 16 - n - 1 = 16 - (n + 1) by omega] at this
  rcases C139_at_most hre (by show m.relations.length + 16 < _; omega) e h0 with ⟨f, hf, rfl⟩ | ⟨n, hl, rfl⟩
  · obtain ⟨n, hm, rfl⟩ := Later.rootFactors hlat _ _ hf
    exact .inl ⟨n, hm, by congr 1; omega⟩
  · exact .inr ⟨_, led _ _ hl, rfl⟩

/-- **C139**, through the service: how much a peer weighs at least.  If no revocation was ever submitted and every root was set with one weight only, then a successful `get_weight`
answers with no less than the weight of the peer as a root, and no less than what is left of the weight of a root on a way of trusts that leads from it to the peer: trusts that were
taken in, were live whenever the service was called with a time, and beside which nothing else was submitted about their two keys. -/
theorem C139_service_at_least {faulty : Prop} {tr : List Event} {cp : CallParams} {p : Str} {K : PublicKey} {t : UInt64} {r : Res Payload} {w : Nat}
    {i : Option Instance} {f : Sql.File} (h : ServiceRun faulty (tr ++ [.call cp (.getWeight p t) (.ok r)]) i f)
    (hn : offeredIn tr + 16 < 2 ^ 32) (hK : Names p K) (hs : r.success = true) (hr : r.payload = .weight w p)
    (hone : ∀ k n n', TookRoot tr k n → Made tr (.setRoot k n') → n = n') (hrev : ∀ op x, Made tr op → ¬ op.Submits (.revocation x)) :
    (∀ n, TookRoot tr K n → 2 ^ min 16 n ≤ w) ∧
    ∀ e, LedBy (fun k e => ∃ n, TookRoot tr k n ∧ e = min 16 n)
      (fun a => Took tr (.auth a) ∧ (∀ op u, Made (tr ++ [.call cp (.getWeight p t) (.ok r)]) op → op.time = some u → Live a.trust u) ∧
        ∀ op q, Made tr op → op.Submits q → q.SamePair (.auth a) → q = .auth a) K e → 2 ^ e ≤ w := by
  obtain ⟨z, hz, -⟩ := C125_library h
  obtain ⟨m, h1, h2⟩ := hz.split _ _ rfl
  have hlen : m.relations.length ≤ 0 + offeredIn tr := h1.length .init (by show 0 + _ + 16 < _; omega)
  rcases h2.single with ⟨x, hx, -⟩ | ⟨hx, -⟩ | ⟨op, fs, fs', a, s, hal, hmean, hcall, rfl, -⟩
  · cases hx
  · rw [hs] at hx; cases hx
  cases hmean with
  | getWeight hX =>
  cases hX.unique hK
  obtain ⟨v, e, rfl⟩ := M.bind_pure_ok hcall
  cases hr
  have hlat := h1.later.weather fs
  have hre := (h1.reachable .init).weather fs
  obtain ⟨ops, h6, h7⟩ := hlat.history
  have lastMade : Made (tr ++ [.call cp (.getWeight p t) (.ok ⟨true, none, (Call.getWeight p t).present (.weight w)⟩)]) (.weight K (.ofSecs t)) :=
    ⟨_, _, _, List.mem_append_right _ (List.mem_singleton_self _), hal, .getWeight hK⟩
  have up : ∀ op, Made tr op → Made (tr ++ [.call cp (.getWeight p t) (.ok ⟨true, none, (Call.getWeight p t).present (.weight w)⟩)]) op :=
    fun op ⟨cp, c, o, hm, h⟩ => ⟨cp, c, o, List.mem_append_left _ hm, h⟩
  have roots : ∀ k n, TookRoot tr k n → ({ m with faults := fs } : Db).rootFactor k = some (16 - min 16 n) := by
    intro k n hk
    obtain ⟨f, hf⟩ := TookRoot.root h1 hk
    obtain ⟨n', hm, rfl⟩ := Later.rootFactors h1.later _ _ hf
    rw [hone k n n' hk hm]
    exact hf
  have unrevoked : ∀ a b, ¬ (({ m with faults := fs } : Db).snapshot (.ofSecs t)).revoked a b := by
    rintro a b ⟨q, hq, -, -⟩
    obtain ⟨op, ho, q0, hq0, hv, e0⟩ := (C72_provenance h6).1 _ hq
    cases q0 with
    | auth => cases e0
    | revocation q0 => exact hrev op q0 (h7 op ho) ⟨hq0, hv⟩
  have hg := C139_distance hre (by show m.relations.length + 16 < _; omega) (fun a _ b _ => unrevoked a b) e
  refine ⟨fun n hk => hg.2 (.inr (.inl ⟨_, roots _ _ hk, by congr 1; omega⟩)), fun e' hl => ?_⟩
  suffices hled : ∀ k e, LedBy (fun k e => ∃ n, TookRoot tr k n ∧ e = min 16 n) _ k e → ∃ n, Led ({ m with faults := fs } : Db) (.ofSecs t) k n ∧ e = 16 - n by
    obtain ⟨n, hn, rfl⟩ := hled _ _ hl
    exact hg.2 (.inr (.inr ⟨n, hn, rfl⟩))
  intro k e hl
  induction hl with
  | root hk he ht =>
    obtain ⟨n, hk, rfl⟩ := hk
    refine ⟨_, .root (roots _ _ hk) he ?_, by omega⟩
    exact ⟨Took.stored (h1.weather fs) ht.1 (fun op u ho hu => ht.2.1 op u (up op ho) hu) ht.2.2, ht.2.1 _ _ lastMade rfl⟩
  | @step a e x _ ht ih =>
    obtain ⟨n, hn, rfl⟩ := ih
    refine ⟨_, .step hn ?_, by omega⟩
    exact ⟨Took.stored (h1.weather fs) ht.1 (fun op u ho hu => ht.2.1 op u (up op ho) hu) ht.2.2, ht.2.1 _ _ lastMade rfl⟩

end TG
