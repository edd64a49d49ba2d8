/-
Property C150: a chain of trusts that the service has taken in is what it certifies.
-/
import Verif.Props.ExportService

namespace TG
open Spec SqlStorage

section
variable [Env]

/-- A chain of trusts, from a root to somebody, all of which the service has taken in.  The first trust is issued by the key it is for, the others by the key of the preceding
one. -/
structure Spec.TakenChain (tr : List Event) (T : UInt64) (ts : List Trust) : Prop where
  long : 2 ≤ ts.length
  /-- The first key was set as a root. -/
  root : ∀ t, ts[0]? = some t → ∃ n, TookRoot tr t.issuedFor n
  /-- No key is on it twice. -/
  distinct : (ts.map (·.issuedFor)).Nodup
  /-- Each trust was added with success. -/
  taken : ∀ (j : Nat) t s, ts[j]? = some t → ts[j - 1]? = some s → Took tr (.auth ⟨t, s.issuedFor⟩)
  /-- All else that was submitted about the issuer and the recipient of a trust is older. -/
  newest : ∀ (j : Nat) t s, ts[j]? = some t → ts[j - 1]? = some s → ∀ op q, Made tr op → op.Submits q → q.SamePair (.auth ⟨t, s.issuedFor⟩) →
    q ≠ .auth ⟨t, s.issuedFor⟩ → q.issuedAt.total < t.issuedAt.total
  /-- Nobody on it has revoked somebody further down, other than the next. -/
  unrevoked : ∀ (j k : Nat) a b, j + 1 < k → ts[j]? = some a → ts[k]? = some b → ∀ op x, Made tr op → op.Submits (.revocation x) →
    ¬ (x.revokedBy = a.issuedFor ∧ x.pk = b.issuedFor)
  /-- At the time `T`, none of the trusts has expired. -/
  live : ∀ t ∈ ts, T < t.expiresAt.secs ∧ t.expiresAt.secs.toNat < 2 ^ 63

/-- A stored trust stays, as long as it is live and nothing newer is submitted about its two keys. -/
theorem Later.keepsTrust {P : Op → Prop} {a : Auth} {db db' : Db} (hl : Later P db db') (hh : db.Healthy)
    (ht : ∀ op u, P op → op.time = some u → Live a.trust u)
    (hq : ∀ op q, P op → op.Submits q → q.SamePair (.auth a) → q.issuedAt.total ≤ a.trust.issuedAt.total) :
    db.Stored (.auth a) → db'.Stored (.auth a) := by
  have hQ : Quiet (fun d d' : Db => d.Healthy → d.Stored (.auth a) → d'.Healthy ∧ d'.Stored (.auth a)) :=
    ⟨fun _ h1 h2 => ⟨h1, h2⟩, fun _ _ _ h1 h2 h h' => h2 (h1 h h').1 (h1 h h').2, fun _ fs h h' => ⟨h.faults fs, h'⟩⟩
  suffices hs : db.Healthy → db.Stored (.auth a) → db'.Healthy ∧ db'.Stored (.auth a) from fun h => (hs hh h).2
  clear hh
  induction hl with
  | refl => exact fun h h' => ⟨h, h'⟩
  | weather fs _ ih => exact hQ.trans _ _ _ ih (hQ.faults _ fs)
  | @step d op hok _ ih =>
    refine hQ.trans _ _ _ ih (Op.run_steps hQ op ?_ ?_ ?_ d)
    · intro t h d hd hx
      exact ⟨hd.collect t, (Db.stored_collect t).mpr ⟨hx, fun b e => by cases e; exact ht op t hok h⟩⟩
    · intro q hoff hv _ d hnew hd hx
      refine ⟨hd.put q, Db.stored_put.mpr (.inr ⟨hx, fun h => ?_⟩)⟩
      have h1 := (news_iff hd).mp hnew _ hx h
      have h2 := hq op q hok ⟨hoff, hv⟩ ⟨h.1.symm, h.2.symm⟩
      exact absurd h1 (by show ¬ a.trust.issuedAt.total < _; omega)
    · rintro pk n rfl d hd hx
      exact ⟨hd.addRoot pk (by unfold getWeightFactor maxWeightFactor; omega), hx⟩

end

variable [LawfulEnv]

/-- A trust that was taken in is stored, as long as it is live and everything else that is submitted about its two keys is older. -/
theorem Spec.Took.storedTrust {tr : List Event} {db : Db} {a : Auth} (h : Acts ⟨[], [], []⟩ tr db) (hk : Took tr (.auth a))
    (ht : ∀ op u, Made tr op → op.time = some u → Live a.trust u)
    (hq : ∀ op q, Made tr op → op.Submits q → q.SamePair (.auth a) → q ≠ .auth a → q.issuedAt.total < a.trust.issuedAt.total) :
    db.Stored (.auth a) := by
  have hle : ∀ op q, Made tr op → op.Submits q → q.SamePair (.auth a) → q.issuedAt.total ≤ a.trust.issuedAt.total := fun op q h1 h2 h3 => by
    by_cases e : q = .auth a
    · rw [e]
      exact le_refl _
    · exact le_of_lt (hq op q h1 h2 h3 e)
  cases hk with
  | @trust cp d i t r x a he hs hp hx ha =>
    obtain ⟨pre, post, rfl⟩ := List.append_of_mem he
    obtain ⟨m1, h1, hz⟩ := h.split _ _ rfl
    obtain ⟨m2, h2, h3⟩ := hz.split [_] _ rfl
    have up : ∀ op, Made post op → Made (pre ++ .call cp (.addTrust d i t) (.ok r) :: post) op := fun op ⟨cp, c, o, hm, h⟩ =>
      ⟨cp, c, o, List.mem_append_right _ (List.mem_cons_of_mem _ hm), h⟩
    have r1 := h1.reachable .init
    refine Later.keepsTrust h3.later (h2.reachable r1).healthy (fun op u ho => ht op u (up op ho)) (fun op q ho => hle op q (up op ho)) ?_
    have hl2 : Later (Made (pre ++ .call cp (.addTrust d i t) (.ok r) :: post)) ⟨[], [], []⟩ m2 :=
      (h1.later.mono fun op ⟨cp, c, o, hm, h⟩ => ⟨cp, c, o, List.mem_append_left _ hm, h⟩).trans
        (h2.later.mono fun op ⟨cp, c, o, hm, h⟩ => ⟨cp, c, o, List.mem_append_right _ (List.mem_singleton.mp hm ▸ List.mem_cons_self ..), h⟩)
    obtain ⟨ops, h6, h7⟩ := hl2.history
    rcases h2.single with ⟨p, hp, -⟩ | ⟨h, -⟩ | ⟨op, fs, fs1, w, dd, hal, hm, hcall, hr, rfl⟩
    · cases hp
    · rw [hs] at h; cases h
    cases hm with
    | addTrust hx' ha' =>
      cases hx.unique hx'
      cases ha.unique ha'
      obtain ⟨w, e, rfl⟩ := M.bind_pure_ok hcall
      subst hr
      have hw : w ≠ 0 := fun h0 => hp (by rw [h0]; rfl)
      obtain ⟨⟨q, h4, h5, h6'⟩, -⟩ := C76_add_trust_takes_effect (r1.weather fs) e hw
      have hwh : (TrustRelation.auth ⟨x, a⟩).trunc = .auth ⟨x, a⟩ := TrustRelation.Whole.trunc_eq (r := .auth ⟨x, a⟩) hx.whole
      rcases h6' with rfl | h6'
      · rw [hwh] at h4
        exact h4
      · obtain ⟨op, ho, q0, hq0, hv, rfl⟩ := (C72_provenance h6).1 q h4
        by_cases e0 : q0 = .auth ⟨x, a⟩
        · rw [e0, hwh] at h4
          exact h4
        · have h8 : q0.issuedAt.total < x.issuedAt.total := hq op q0 (h7 op ho) ⟨hq0, hv⟩ (by simpa [TrustRelation.SamePair] using h5) e0
          have h9 : q0.trunc.issuedAt.total ≤ q0.issuedAt.total := by
            have : q0.trunc.issuedAt = q0.issuedAt.trunc := by cases q0 <;> rfl
            rw [this]
            exact Dur.ofSecs_total_le _
          omega

/-- In the graph of a service, a chain that was taken in is a certificate. -/
theorem Spec.TakenChain.admissible {tr : List Event} {db : Db} {T : UInt64} {ts : List Trust} {K : PublicKey} (h : TakenChain tr T ts) (ha : Acts ⟨[], [], []⟩ tr db)
    (htime : ∀ op u, Made tr op → op.time = some u → u.secs ≤ T) (hK : ∀ t, ts.getLast? = some t → t.issuedFor = K) :
    Admissible (db.snapshot (.ofSecs T)) K ⟨ts⟩ := by
  have hre := ha.reachable .init
  have below : ∀ t ∈ ts, T.toNat < 2 ^ 63 := fun t ht => (UInt64.lt_iff_toNat_lt.mp (h.live t ht).1).trans (h.live t ht).2
  have live : ∀ t ∈ ts, ∀ u : Dur, u.secs ≤ T → Live t u := fun t ht u hu =>
    lt_of_le_of_lt (asI64_mono hu (below t ht)) (asI64_strict (h.live t ht).1 (h.live t ht).2)
  have stored : ∀ (j : Nat) t s, ts[j]? = some t → ts[j - 1]? = some s → db.Stored (.auth ⟨t, s.issuedFor⟩) := fun j t s ht hs =>
    Took.storedTrust ha (h.taken j t s ht hs) (fun op u ho hu => live t (List.mem_of_getElem? ht) u (htime op u ho hu)) (h.newest j t s ht hs)
  have trusted : ∀ (j : Nat) t s, ts[j]? = some t → ts[j - 1]? = some s → (db.snapshot (.ofSecs T)).trusted s.issuedFor t := fun j t s ht hs =>
    ⟨stored j t s ht hs, live t (List.mem_of_getElem? ht) (.ofSecs T) (UInt64.le_refl T)⟩
  refine ⟨⟨h.long, ?_, ?_, ?_⟩, ?_, ?_⟩
  · intro t ht
    obtain ⟨n, hn⟩ := h.root t ht
    obtain ⟨f, hf⟩ := TookRoot.root ha hn
    exact ⟨Db.rootFactor_isSome.1 (by rw [hf]; rfl), trusted 0 t t ht ht⟩
  · exact fun j a b ha hb => trusted (j + 1) b a hb ha
  · exact fun t ht => hK t (by rw [List.getLast?_eq_getElem?]; exact ht)
  · intro i j a b hij hi hj e
    have h1 : (ts.map (·.issuedFor))[i]? = (ts.map (·.issuedFor))[j]? := by rw [List.getElem?_map, List.getElem?_map, hi, hj]; simp [e]
    have hlt : i < (ts.map (·.issuedFor)).length := by rw [List.length_map]; exact (List.getElem?_eq_some_iff.mp hi).1
    have := (List.getElem?_inj hlt h.distinct).mp h1
    omega
  · rintro j k a b hjk hj hk - ⟨q, hq, e1, e2⟩
    rcases Nat.lt_or_ge (j + 1) k with hlt | hge
    · obtain ⟨ops, h6, h7⟩ := ha.later.history
      obtain ⟨op, ho, q0, hq0, hv, e0⟩ := (C72_provenance h6).1 _ hq
      cases q0 with
      | auth => cases e0
      | revocation q0 =>
        cases e0
        exact h.unrevoked j k a b hlt hj hk op q0 (h7 op ho) ⟨hq0, hv⟩ ⟨e1, e2⟩
    · obtain rfl : k = j + 1 := by omega
      have := hre.healthy.stored_unique hq (stored (j + 1) b a hk hj) e2 e1
      cases this

/-- **C150.**  Let a chain of trusts from a root to a peer have been added at the service, with success; let the root have been set; and let all else that was submitted about the
issuer and the recipient of each trust be older.  Then, whatever else was called by whomever with times up to `T`: when asked for the certificates of the peer at `T`, the service
answers this chain among them, if none of its trusts has expired and nobody on it has revoked somebody further down; and when asked for the weight, it answers more than 0. -/
theorem C150_certified {faulty : Prop} {tr : List Event} {cp : CallParams} {c : Call} {p : Str} {K : PublicKey} {T : UInt64} {r : Res Payload} {ts : List Trust}
    {i : Option Instance} {f : Sql.File} (h : ServiceRun faulty (tr ++ [.call cp c (.ok r)]) i f) (hn : offeredIn tr + 16 < 2 ^ 32) (hs : r.success = true)
    (hts : TakenChain tr T ts) (htime : ∀ op u, Made tr op → op.time = some u → u.secs ≤ T) (hp : Names p K) (hK : ∀ t, ts.getLast? = some t → t.issuedFor = K) :
    (c = .getAllCerts p T → ∃ ds, r.payload = .certs ds ∧ Dto.ofCertificate ⟨ts⟩ ∈ ds) ∧
    (∀ q Q t, c = .getAllCertsFrom p q T → Names q Q → t ∈ ts → t.issuedFor = Q → ∃ ds, r.payload = .certs ds ∧ Dto.ofCertificate ⟨ts⟩ ∈ ds) ∧
    (c = .getWeight p T → ∃ w, r.payload = .weight w p ∧ 0 < w) ∧
    (∀ q Q t, c = .getWeightFrom p q T → Names q Q → t ∈ ts → t.issuedFor = Q → ∃ w, r.payload = .weight w p ∧ 0 < w) := by
  obtain ⟨z, hz, -⟩ := C125_library h
  obtain ⟨m, h1, h2⟩ := hz.split _ _ rfl
  have hrm := h1.reachable .init
  have hnm := h1.length .init (by show 0 + _ + 16 < _; omega)
  rw [show (⟨[], [], []⟩ : Db).relations.length = 0 from rfl] at hnm
  have hadm := hts.admissible h1 htime hK
  rcases h2.single with ⟨x, hx, rfl⟩ | ⟨hx, -⟩ | ⟨op, fs, fs', a, s, hal, hm, hcall, rfl, -⟩
  · refine ⟨?_, ?_, ?_, ?_⟩
    · rintro rfl; cases hx
    · rintro q Q t rfl; cases hx
    · rintro rfl; cases hx
    · rintro q Q t rfl; cases hx
  · rw [hs] at hx; cases hx
  refine ⟨?_, ?_, ?_, ?_⟩
  · rintro rfl
    cases hm with
    | getAllCerts hX =>
      cases hX.unique hp
      obtain ⟨cs, e, rfl⟩ := M.bind_pure_ok hcall
      exact ⟨_, rfl, List.mem_map_of_mem (((C02_complete_exactly_once (hrm.weather fs).healthy e).2 _).mpr hadm)⟩
  · rintro q Q t rfl hQ ht htQ
    cases hm with
    | getAllCertsFrom hX hY =>
      cases hX.unique hp
      cases hY.unique hQ
      obtain ⟨cs, e, rfl⟩ := M.bind_pure_ok hcall
      obtain ⟨all, _, h3, rfl⟩ := C09_from_selects_partial (hrm.weather fs).healthy e
      refine ⟨_, rfl, List.mem_map_of_mem (List.mem_filter.mpr ⟨((C02_complete_exactly_once (hrm.weather fs).healthy.calm h3).2 _).mpr hadm, ?_⟩)⟩
      exact decide_eq_true ⟨t, ht, htQ⟩
  · rintro rfl
    cases hm with
    | getWeight hX =>
      cases hX.unique hp
      obtain ⟨w, e, rfl⟩ := M.bind_pure_ok hcall
      exact ⟨w, rfl, Nat.lt_of_lt_of_le (certWeight_pos hadm)
        ((weight_ok (hrm.weather fs).healthy (by show m.relations.length + 16 < _; omega) e).2 (.inr (.inr ⟨_, hadm, rfl⟩)))⟩
  · rintro q Q t rfl hQ ht htQ
    cases hm with
    | getWeightFrom hX hY =>
      cases hX.unique hp
      cases hY.unique hQ
      obtain ⟨w, e, rfl⟩ := M.bind_pure_ok hcall
      exact ⟨w, rfl, Nat.lt_of_lt_of_le (certWeight_pos hadm)
        ((weightFrom_ok (hrm.weather fs).healthy (by show m.relations.length + 16 < _; omega) e).2 (.inr ⟨_, hadm, ⟨t, ht, htQ⟩, rfl⟩))⟩

end TG
