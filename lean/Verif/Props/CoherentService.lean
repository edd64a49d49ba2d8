/-
Property C137, through the service.
-/
import Verif.Props.Coherent
import Verif.Props.ServiceUpstream

namespace TG
open Spec SqlStorage

section
variable [Env]

/-- A query with a time, which is this one. -/
def Op.Asks (op : Op) (now : Dur) : Prop := op.IsQuery ∧ op.time = some now

theorem Op.Asks.answers {op : Op} {now : Dur} (h : op.Asks now) {db : Db} (hr : Reachable db) (hf : db.NoFaults) (hn : db.relations.length + 16 < 2 ^ 32) :
    ∃ a, (op.call db).1 = .ok a := by
  have ok : ∀ {α : Type} {x : M Db TrustGraphError α} {g : α → Answer}, (∃ a, (x db).1 = .ok a) → ∃ b, ((x >>= fun a => pure (g a)) db).1 = .ok b := by
    rintro α x g ⟨a, ha⟩
    rcases hx : x db with ⟨o, s⟩
    rw [hx] at ha
    cases ha
    exact ⟨g a, by rw [M.bind_run, hx]; rfl⟩
  have hw := fun k a => C14_weight_queries_succeed hr hf (Or.inr hn) k a now
  have hc := fun k a => C14_cert_queries_succeed hr hf k a now
  obtain ⟨hq, ht⟩ := h
  cases op with
  | weight k t => cases ht; exact ok (hw k k).1
  | weightFrom k a t => cases ht; exact ok (hw k a).2
  | getAllCerts k t => cases ht; exact ok (hc k k).1
  | getAllCertsFrom k a t => cases ht; exact ok (hc k a).2
  | getRevocations => cases ht
  | _ => exact hq.elim

end

variable [LawfulEnv]

/-- Two queries with the same time and only queries in between are answered as if they had been asked at the same moment. -/
theorem ServiceRun.moment {faulty : Prop} {pre mid post : List Event} {cp cp' : CallParams} {c c' : Call} {r r' : Res Payload} {i : Option Instance} {f : Sql.File}
    {t : UInt64} (h : ServiceRun faulty (pre ++ .call cp c (.ok r) :: (mid ++ .call cp' c' (.ok r') :: post)) i f)
    (hn : offeredIn (pre ++ .call cp c (.ok r) :: (mid ++ .call cp' c' (.ok r') :: post)) + 16 < 2 ^ 32) (ht : t.toNat < 2 ^ 63)
    (hs : r.success = true) (hs' : r'.success = true) (hc : ∀ p, ¬ Computes c p) (hc' : ∀ p, ¬ Computes c' p)
    (hq : ∀ op, Means cp c op → op.Asks (.ofSecs t)) (hq' : ∀ op, Means cp' c' op → op.Asks (.ofSecs t))
    (hmid : ∀ op, Made mid op → op.IsQuery ∧ ∀ u, op.time = some u → u.secs ≤ t) :
    ∃ op op' a a' db, Reachable db ∧ db.NoFaults ∧ db.relations.length + 16 < 2 ^ 32 ∧ Later (Made pre) ⟨[], [], []⟩ db ∧ Means cp c op ∧ Means cp' c' op' ∧
      (op.call db).1 = .ok a ∧ (op'.call db).1 = .ok a' ∧ r = ⟨true, none, c.present a⟩ ∧ r' = ⟨true, none, c'.present a'⟩ := by
  obtain ⟨op, op', a, a', db, db', s, s', hre, hn1, -, -, -, hm, hm', hcall, hcall', e, e', hl, hpre⟩ := h.between hn hs hs' hc hc'
  have h1 := hq op hm
  have h2 := hq' op' hm'
  let P : Op → Prop := fun x => x.IsQuery ∧ ∀ u, x.time = some u → asI64 u.secs ≤ asI64 (Dur.ofSecs t).secs
  have h0 : Later P { db with faults := [] } db := Later.weather (db' := { db with faults := [] }) db.faults .refl
  have hl' : Later P { db with faults := [] } db' := h0.trans (hl.mono fun x hx => by
    rcases hx with rfl | hx
    · exact ⟨h1.1, fun u hu => by rw [h1.2] at hu; cases hu; exact le_refl _⟩
    · exact ⟨(hmid x hx).1, fun u hu => asI64_mono ((hmid x hx).2 u hu) ht⟩)
  have hre0 : Reachable { db with faults := [] } := hre.weather []
  obtain ⟨b, hb⟩ := h1.answers hre0 rfl hn1
  obtain ⟨b', hb'⟩ := h2.answers hre0 rfl hn1
  obtain rfl := (C36_queries_do_not_disturb_partial h1.1 (fun u hu => by rw [h1.2] at hu; cases hu; rfl) h0).2 b a hb (by rw [hcall])
  obtain rfl := (C36_queries_do_not_disturb_partial h2.1 (fun u hu => by rw [h2.2] at hu; cases hu; rfl) hl').2 b' a' hb' (by rw [hcall'])
  exact ⟨op, op', b, b', _, hre0, rfl, hn1, hpre.weather [], hm, hm', hb, hb', e, e'⟩

/-- **C137**, through the service: two successful answers at the same time `t`, in whichever order, with nothing but queries between them.  `get_all_certs_from` returns those of the
records returned by `get_all_certs`, in the same order, on which the issuer is named; `get_weight_from` answers with no more than `get_weight`; a peer has weight if there is a
certificate for it, and otherwise only if the owner has set it as a root; it has weight through an issuer exactly if there is a certificate through the issuer; and
`get_host_certs` returns what `get_all_certs` returns for the host. -/
theorem C137_service {faulty : Prop} {pre mid post : List Event} {cp₁ cp₂ cp cp' : CallParams} {c₁ c₂ c c' : Call} {r₁ r₂ r r' : Res Payload} {i : Option Instance}
    {f : Sql.File} {p q : Str} {K Q : PublicKey} {t : UInt64} (hw : Env.wasm = true)
    (h : ServiceRun faulty (pre ++ .call cp₁ c₁ (.ok r₁) :: (mid ++ .call cp₂ c₂ (.ok r₂) :: post)) i f)
    (hn : offeredIn (pre ++ .call cp₁ c₁ (.ok r₁) :: (mid ++ .call cp₂ c₂ (.ok r₂) :: post)) + 16 < 2 ^ 32) (ht : t.toNat < 2 ^ 63)
    (hs₁ : r₁.success = true) (hs₂ : r₂.success = true) (hmid : ∀ op, Made mid op → op.IsQuery ∧ ∀ u, op.time = some u → u.secs ≤ t)
    (hK : Names p K) (hQ : Names q Q)
    (hxy : (cp, c, r, cp', c', r') = (cp₁, c₁, r₁, cp₂, c₂, r₂) ∨ (cp, c, r, cp', c', r') = (cp₂, c₂, r₂, cp₁, c₁, r₁)) :
    (c = .getAllCerts p t → c' = .getAllCertsFrom p q t → ∃ ds ds', r.payload = .certs ds ∧ r'.payload = .certs ds' ∧ ds'.Sublist ds ∧
      ∀ d, d ∈ ds' ↔ d ∈ ds ∧ ∃ x ∈ d.chain, Names x.issuedFor Q) ∧
    (c = .getWeight p t → c' = .getWeightFrom p q t → ∃ w w', r.payload = .weight w p ∧ r'.payload = .weight w' p ∧ w' ≤ w) ∧
    (c = .getAllCerts p t → c' = .getWeight p t → ∃ ds w, r.payload = .certs ds ∧ r'.payload = .weight w p ∧
      (ds ≠ [] → 0 < w) ∧ (0 < w → ds ≠ [] ∨ OwnerSet pre K)) ∧
    (c = .getAllCertsFrom p q t → c' = .getWeightFrom p q t → ∃ ds w, r.payload = .certs ds ∧ r'.payload = .weight w p ∧ (0 < w ↔ ds ≠ [])) ∧
    (c = .getHostCerts t → c' = .getAllCerts cp.hostId t → r = r') := by
  have mom : (∀ p, ¬ Computes c p) → (∀ p, ¬ Computes c' p) → (∀ op, Means cp c op → op.Asks (.ofSecs t)) → (∀ op, Means cp' c' op → op.Asks (.ofSecs t)) →
      ∃ op op' a a' db, Reachable db ∧ db.NoFaults ∧ db.relations.length + 16 < 2 ^ 32 ∧ Later (Made pre) ⟨[], [], []⟩ db ∧ Means cp c op ∧ Means cp' c' op' ∧
        (op.call db).1 = .ok a ∧ (op'.call db).1 = .ok a' ∧ r = ⟨true, none, c.present a⟩ ∧ r' = ⟨true, none, c'.present a'⟩ := by
    intro hc hc' hq hq'
    rcases hxy with e | e
    · cases e
      exact h.moment hn ht hs₁ hs₂ hc hc' hq hq' hmid
    · cases e
      obtain ⟨op, op', a, a', db, h1, h2, h3, h4, h5, h6, h7, h8, h9, h10⟩ := h.moment hn ht hs₁ hs₂ hc' hc hq' hq hmid
      exact ⟨op', op, a', a, db, h1, h2, h3, h4, h6, h5, h8, h7, h10, h9⟩
  have ok : ∀ {α : Type} {x : M Db TrustGraphError α} {g : α → Answer} {db : Db} {b : Answer}, ((x >>= fun a => pure (g a)) db).1 = .ok b →
      ∃ a s, x db = (.ok a, s) ∧ b = g a := by
    intro α x g db b hb
    obtain ⟨a, ha, e⟩ := M.bind_pure_ok (x := x) (g := g) (s := db) (Prod.ext hb rfl)
    exact ⟨a, _, ha, e⟩
  refine ⟨?_, ?_, ?_, ?_, ?_⟩
  · rintro rfl rfl
    obtain ⟨op, op', a, a', db, hre, hf, -, -, hm, hm', hc, hc', rfl, rfl⟩ := mom (fun _ h => by cases h) (fun _ h => by cases h)
      (fun _ h => by cases h; exact ⟨trivial, rfl⟩) (fun _ h => by cases h; exact ⟨trivial, rfl⟩)
    cases hm with
    | getAllCerts hk =>
    cases hm' with
    | getAllCertsFrom hk' hq' =>
    cases hk.unique hK
    cases hk'.unique hK
    cases hq'.unique hQ
    obtain ⟨cs, s, e, rfl⟩ := ok hc
    obtain ⟨cs', s', e', rfl⟩ := ok hc'
    obtain ⟨all, d, h1, h2⟩ := C09_from_selects_partial hre.healthy e'
    rw [hf.calm_eq, e] at h1
    cases h1
    refine ⟨_, _, rfl, rfl, ?_, ?_⟩
    · rw [h2]
      exact List.filter_sublist.map _
    · intro d
      have hx : ∀ c : Certificate, (∃ x ∈ c.chain, x.issuedFor = Q) ↔ ∃ x ∈ (Dto.ofCertificate c).chain, Names x.issuedFor Q := by
        intro c
        show _ ↔ ∃ x ∈ c.chain.map Dto.ofTrust, _
        constructor
        · rintro ⟨x, hx, rfl⟩
          exact ⟨_, List.mem_map_of_mem hx, names_toPeerId hw _⟩
        · rintro ⟨y, hy, hn⟩
          obtain ⟨x, hx, rfl⟩ := List.mem_map.mp hy
          exact ⟨x, hx, (names_toPeerId hw x.issuedFor).unique hn⟩
      constructor
      · intro hd
        obtain ⟨c, hc, rfl⟩ := List.mem_map.mp hd
        rw [h2, List.mem_filter, decide_eq_true_iff] at hc
        exact ⟨List.mem_map_of_mem hc.1, (hx c).mp hc.2⟩
      · rintro ⟨hd, hn⟩
        obtain ⟨c, hc, rfl⟩ := List.mem_map.mp hd
        refine List.mem_map_of_mem ?_
        rw [h2, List.mem_filter, decide_eq_true_iff]
        exact ⟨hc, (hx c).mpr hn⟩
  · rintro rfl rfl
    obtain ⟨op, op', a, a', db, hre, hf, hl, -, hm, hm', hc, hc', rfl, rfl⟩ := mom (fun _ h => by cases h) (fun _ h => by cases h)
      (fun _ h => by cases h; exact ⟨trivial, rfl⟩) (fun _ h => by cases h; exact ⟨trivial, rfl⟩)
    cases hm with
    | getWeight hk =>
    cases hm' with
    | getWeightFrom hk' hq' =>
    cases hk.unique hK
    cases hk'.unique hK
    cases hq'.unique hQ
    obtain ⟨w, s, e, rfl⟩ := ok hc
    obtain ⟨w', s', e', rfl⟩ := ok hc'
    exact ⟨w, w', rfl, rfl, (C13_weight_from_le_weight hre.healthy hl e e').2⟩
  · rintro rfl rfl
    obtain ⟨op, op', a, a', db, hre, hf, hl, hpre, hm, hm', hc, hc', rfl, rfl⟩ := mom (fun _ h => by cases h) (fun _ h => by cases h)
      (fun _ h => by cases h; exact ⟨trivial, rfl⟩) (fun _ h => by cases h; exact ⟨trivial, rfl⟩)
    cases hm with
    | getAllCerts hk =>
    cases hm' with
    | getWeight hk' =>
    cases hk.unique hK
    cases hk'.unique hK
    obtain ⟨cs, s, e, rfl⟩ := ok hc
    obtain ⟨w, s', e', rfl⟩ := ok hc'
    have hmem := (C02_complete_exactly_once hre.healthy e).2
    have g := weight_ok hre.healthy hl e'
    refine ⟨_, w, rfl, rfl, fun hd => ?_, fun hw => ?_⟩
    · obtain ⟨c, hc⟩ := List.exists_mem_of_ne_nil cs (fun h0 => hd (by rw [h0]; rfl))
      exact lt_of_lt_of_le (certWeight_pos ((hmem c).mp hc)) (g.2 (.inr (.inr ⟨c, (hmem c).mp hc, rfl⟩)))
    · rcases g.1 with e1 | ⟨f, hf, -⟩ | ⟨c, hc1, -⟩
      · omega
      · exact .inr (OwnerSet.of_root hpre (by rw [hf]; rfl))
      · exact .inl (List.ne_nil_of_mem (List.mem_map_of_mem ((hmem c).mpr hc1)))
  · rintro rfl rfl
    obtain ⟨op, op', a, a', db, hre, hf, hl, hpre, hm, hm', hc, hc', rfl, rfl⟩ := mom (fun _ h => by cases h) (fun _ h => by cases h)
      (fun _ h => by cases h; exact ⟨trivial, rfl⟩) (fun _ h => by cases h; exact ⟨trivial, rfl⟩)
    cases hm with
    | getAllCertsFrom hk hq =>
    cases hm' with
    | getWeightFrom hk' hq' =>
    cases hk.unique hK
    cases hk'.unique hK
    cases hq.unique hQ
    cases hq'.unique hQ
    obtain ⟨cs, s, e, rfl⟩ := ok hc
    obtain ⟨w, s', e', rfl⟩ := ok hc'
    obtain ⟨o, h1, h2, h3⟩ := (C137_weights_of_certs hre hf hl K (.ofSecs t)).1 Q w cs (by rw [e']) (by rw [e])
    refine ⟨_, w, rfl, rfl, ?_⟩
    rw [h3, Ne, List.map_eq_nil_iff, ← h2]
    cases o with
    | none => simp
    | some f => exact iff_of_true (Nat.two_pow_pos _) (by simp)
  · rintro rfl rfl
    obtain ⟨op, op', a, a', db, -, -, -, -, hm, hm', hc, hc', rfl, rfl⟩ := mom (fun _ h => by cases h) (fun _ h => by cases h)
      (fun _ h => by cases h; exact ⟨trivial, rfl⟩) (fun _ h => by cases h; exact ⟨trivial, rfl⟩)
    cases hm with
    | getHostCerts hk =>
    cases hm' with
    | getAllCerts hk' =>
    cases hk.unique hk'
    rw [hc] at hc'
    cases hc'
    obtain ⟨cs, s, e, rfl⟩ := ok hc
    rfl

end TG
