/-
Property C97, through the service.
-/
import Verif.Props.Containment
import Verif.Props.Reliance

namespace TG
open Spec SqlStorage

variable [LawfulEnv]

/-- For a trust that is live at `t`, being live at the later time `T` is a matter of its date. -/
theorem Spec.live_iff_expires {x : Trust} {t T : UInt64} (ht : t ≤ T) (hT : T.toNat < 2 ^ 63) (hx : Live x (.ofSecs t)) :
    Live x (.ofSecs T) ↔ T < (Dto.ofTrust x).expiresAt := by
  have h1 : asI64 t < asI64 x.expiresAt.secs := hx
  have h2 : t.toNat < 2 ^ 63 := lt_of_le_of_lt (UInt64.le_iff_toNat_le.mp ht) hT
  have h3 : x.expiresAt.secs.toNat < 2 ^ 63 := by
    by_contra hge
    rw [asI64_of_lt h2] at h1
    unfold asI64 at h1
    rw [if_neg hge] at h1
    have := x.expiresAt.secs.toNat_lt
    omega
  show _ ↔ T < x.expiresAt.secs
  refine ⟨fun h => ?_, fun h => asI64_strict h h3⟩
  have h4 : asI64 T < asI64 x.expiresAt.secs := h
  rw [asI64_of_lt hT, asI64_of_lt h3] at h4
  exact UInt64.lt_iff_toNat_lt.mpr (by omega)

/-- **C97**, through the service: what compromised keys cannot touch.  Let the service show certificates for a peer at time `t` and again at the later time `T`, and let everything
validly signed that was submitted in between have been issued by keys of `S`.  Then a certificate on which no key of `S` stands before the last is shown the second time exactly if
it was shown the first time and lasts beyond `T`. -/
theorem C97_service {faulty : Prop} {S : PublicKey → Prop} {pre mid post : List Event} {cp cp' : CallParams} {p : Str} {t T : UInt64} {r r' : Res Payload}
    {ds ds' : List CertDto} {i : Option Instance} {f : Sql.File} (hw : Env.wasm = true)
    (h : ServiceRun faulty (pre ++ .call cp (.getAllCerts p t) (.ok r) :: (mid ++ .call cp' (.getAllCerts p T) (.ok r') :: post)) i f)
    (hn : offeredIn (pre ++ .call cp (.getAllCerts p t) (.ok r) :: (mid ++ .call cp' (.getAllCerts p T) (.ok r') :: post)) + 16 < 2 ^ 32)
    (hs : r.success = true) (hs' : r'.success = true) (hr : r.payload = .certs ds) (hr' : r'.payload = .certs ds') (ht : t ≤ T) (hT : T.toNat < 2 ^ 63)
    (hmid : ∀ op, Made mid op → (∀ q, op.Submits q → S q.issuedBy) ∧ (∀ k n, op ≠ .setRoot k n) ∧ ∀ u, op.time = some u → u.secs ≤ T)
    (d : CertDto) (hd : ∀ x ∈ d.chain.dropLast, ∀ k, Names x.issuedFor k → ¬ S k) :
    d ∈ ds' ↔ d ∈ ds ∧ ∀ x ∈ d.chain, T < x.expiresAt := by
  obtain ⟨op, op', a, a', db, db', s, s', hre, -, -, -, -, hm, hm', hc, hc', rfl, rfl, hl, -⟩ := h.between hn hs hs' (fun _ h => by cases h) (fun _ h => by cases h)
  cases hm with
  | getAllCerts hk =>
  cases hm' with
  | getAllCerts hk' =>
  cases hk.unique hk'
  rename_i K
  obtain ⟨cs, e, rfl⟩ := M.bind_pure_ok hc
  obtain ⟨cs', e', rfl⟩ := M.bind_pure_ok hc'
  cases hr
  cases hr'
  have htT : asI64 t ≤ asI64 T := asI64_mono ht hT
  have hre0 : Reachable { db with faults := [] } := hre.weather []
  obtain ⟨⟨cT, eT⟩, -⟩ := C14_cert_queries_succeed hre0 rfl K K (.ofSecs T)
  obtain ⟨⟨c0, e0⟩, -⟩ := C14_cert_queries_succeed hre0 rfl K K (.ofSecs t)
  have hmem := (C02_complete_exactly_once hre.healthy e).2
  have hmem0 := (C02_complete_exactly_once hre0.healthy (Prod.ext e0 rfl)).2
  have htime := C140_time hre0 htT (Prod.ext e0 rfl) (Prod.ext eT rfl)
  have hl' : Later (fun op => OnlyBy S op ∧ ∀ u, op.time = some u → asI64 u.secs ≤ asI64 (Dur.ofSecs T).secs) { db with faults := [] } db' :=
    (Later.weather (db' := { db with faults := [] }) db.faults .refl).trans (hl.mono fun x hx => by
      rcases hx with rfl | hx
      · exact ⟨⟨fun q hq => (by cases hq.1), fun k n e => (by cases e)⟩, fun u hu => by cases hu; exact htT⟩
      · exact ⟨⟨(hmid x hx).1, (hmid x hx).2.1⟩, fun u hu => asI64_mono ((hmid x hx).2.2 u hu) hT⟩)
  have hun := C97_untouched hre0 hl' (Prod.ext eT rfl) e'
  have live : ∀ c ∈ cs, ((∀ x ∈ c.chain, Live x (.ofSecs T)) ↔ ∀ x ∈ (Dto.ofCertificate c).chain, T < x.expiresAt) := by
    intro c hc
    have hadm := (hmem c).mp hc
    have hx : ∀ x ∈ c.chain, Live x (.ofSecs t) := by
      intro x hx
      obtain ⟨i, hi, rfl⟩ := List.mem_iff_getElem.mp hx
      rcases i with _ | i
      · exact (hadm.linked.root _ (List.getElem?_eq_getElem hi)).2.2
      · exact (hadm.linked.link i _ _ (List.getElem?_eq_getElem (by omega)) (List.getElem?_eq_getElem hi)).2
    show _ ↔ ∀ x ∈ c.chain.map Dto.ofTrust, _
    rw [List.forall_mem_map]
    exact forall_congr' fun x => forall_congr' fun h => live_iff_expires ht hT (hx x h)
  have key : ∀ c : Certificate, (∀ x ∈ (Dto.ofCertificate c).chain.dropLast, ∀ k, Names x.issuedFor k → ¬ S k) → ∀ k ∈ c.keys.dropLast, ¬ S k := by
    intro c hc k hk
    have : k ∈ c.chain.dropLast.map (·.issuedFor) := by
      rw [List.map_dropLast]
      exact hk
    obtain ⟨x, hx, rfl⟩ := List.mem_map.mp this
    refine hc (Dto.ofTrust x) ?_ _ (names_toPeerId hw _)
    show _ ∈ (c.chain.map Dto.ofTrust).dropLast
    rw [← List.map_dropLast]
    exact List.mem_map_of_mem hx
  have main : ∀ c : Certificate, (∀ k ∈ c.keys.dropLast, ¬ S k) → (c ∈ cs' ↔ c ∈ cs ∧ ∀ x ∈ c.chain, Live x (.ofSecs T)) := fun c hc => by
    rw [hun c hc, htime c, hmem0 c, hmem c]
    exact Iff.rfl
  constructor
  · intro h1
    obtain ⟨c, hc, rfl⟩ := List.mem_map.mp h1
    obtain ⟨h2, h3⟩ := (main c (key c hd)).mp hc
    exact ⟨List.mem_map_of_mem h2, (live c h2).mp h3⟩
  · rintro ⟨h1, h3⟩
    obtain ⟨c, hc, rfl⟩ := List.mem_map.mp h1
    exact List.mem_map_of_mem ((main c (key c hd)).mpr ⟨hc, (live c hc).mpr h3⟩)

end TG
