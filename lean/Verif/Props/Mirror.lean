/-
Property C120: what one service answers can be handed to another service.
-/
import Verif.Props.CarryAll
import Verif.Props.ServiceAnswers
import Verif.Proofs.ServiceMachine
import Verif.Proofs.Cost

namespace TG
open TG.Service

section
variable [Env]

/-- The calls are made one after the other, and all succeed. -/
inductive Spec.Served : List (CallParams × Call) → Db → Db → Prop
  | nil {db} : Served [] db db
  | cons {cp c rest db db' db''} : c.run cp db = (.ok (true, none), db') → Served rest db' db'' → Served ((cp, c) :: rest) db db''

/-- Certificates `cs` and revocations `rs`, as the service `A` gave them out when asked with the timestamp `asked`, and with the call parameters and the timestamp
with which they will be handed to the service `B`. -/
structure Spec.Mirrors (A B : Db) (asked : UInt64) (cs : List (CallParams × CertDto × UInt64)) (rs : List (CallParams × RevocationDto × UInt64)) : Prop where
  /-- Nothing is stored on `B`. -/
  empty : ∀ r, ¬ B.Stored r
  roots : ∀ k, B.rootFactor k = A.rootFactor k
  /-- `get_all_certs` of `A` returned each certificate. -/
  certs : ∀ p ∈ cs, ∃ cp peer dtos s, Service.getAllCerts cp peer asked A = (.ok ⟨true, none, dtos⟩, s) ∧ p.2.1 ∈ dtos
  /-- The certificates are not longer than their roots allow. -/
  limit : ∀ p ∈ cs, ∀ t k f, p.2.1.chain[0]? = some t → Names t.issuedFor k → A.rootFactor k = some f → p.2.1.chain.length ≤ 16 - f + 1
  /-- The trusts live until all is done. -/
  live : ∀ p ∈ cs, ∀ q ∈ cs, ∀ t ∈ p.2.1.chain, asI64 q.2.2 < asI64 t.expiresAt
  time : ∀ q ∈ cs, q.2.2.toNat < 2 ^ 63
  /-- `export_revocations` of `A` returned each revocation, and the revocations contain what it returned for the peers on the certificates. -/
  revocations : ∀ q ∈ rs, ∃ cp peer dtos s, Service.exportRevocations cp peer A = (.ok ⟨true, none, dtos⟩, s) ∧ q.2.1 ∈ dtos
  complete : ∀ p ∈ cs, ∀ t ∈ p.2.1.chain, ∃ cp dtos s, Service.exportRevocations cp t.issuedFor A = (.ok ⟨true, none, dtos⟩, s) ∧
    ∀ d ∈ dtos, ∃ q ∈ rs, q.2.1 = d
  /-- Revocations are handed over with the time of the clock of `B`, after they were issued. -/
  clock : ∀ q ∈ rs, q.1.FromHostClock 1 ∧ q.2.1.revokedAt.toNat ≤ q.2.2.toNat

/-- The calls by which they are handed over: first the certificates. -/
def Spec.mirrorCalls (cs : List (CallParams × CertDto × UInt64)) (rs : List (CallParams × RevocationDto × UInt64)) : List (CallParams × Call) :=
  cs.map (fun p => (p.1, .insertCert p.2.1 p.2.2)) ++ rs.map (fun q => (q.1, .revoke q.2.1 q.2.2))

omit [Env] in
theorem into_ok {α : Type} {n : α} {x : M Db ServiceError α} {db s : Db} {a : α} (h : into n x db = (.ok ⟨true, none, a⟩, s)) : x db = (.ok a, s) := by
  unfold into at h
  rcases hx : x db with ⟨_ | _ | _ | _, s'⟩ <;> rw [hx] at h <;> cases h
  rfl

omit [Env] in
theorem lift_bind_ok {α β : Type} {o : Outcome ServiceError α} {f : α → M Db ServiceError β} {db s : Db} {b : β}
    (h : (M.lift o >>= f) db = (.ok b, s)) : ∃ a, o = .ok a ∧ f a db = (.ok b, s) := by
  rw [lift_bind_run] at h
  rcases o with a | e | _ | _
  · exact ⟨a, rfl, h⟩
  all_goals cases h

omit [Env] in
theorem tg_map_ok {α β : Type} {x : M Db TrustGraphError α} {f : α → β} {db s : Db} {b : β}
    (h : (tg x >>= fun a => (pure (f a) : M Db ServiceError β)) db = (.ok b, s)) : ∃ a, x db = (.ok a, s) ∧ b = f a := by
  rw [M.bind_run] at h
  unfold tg at h
  rw [M.mapErr_run] at h
  rcases hx : x db with ⟨_ | _ | _ | _, s'⟩ <;> rw [hx] at h <;> cases h
  exact ⟨_, rfl, rfl⟩

theorem extract_names {p : Str} {k : PublicKey} (h : extractPublicKey p = .ok k) : Spec.Names p k := by
  rcases extractPublicKey_names p with ⟨k', h', hn⟩ | ⟨h', -⟩ | ⟨h', -⟩ <;> rw [h'] at h <;> cases h
  exact hn

/-- What it means that `get_all_certs` succeeds. -/
theorem getAllCerts_inv {cp : CallParams} {peer : Str} {t : UInt64} {db s : Db} {dtos : List CertDto}
    (h : Service.getAllCerts cp peer t db = (.ok ⟨true, none, dtos⟩, s)) :
    ∃ k certs, extractPublicKey peer = .ok k ∧ TrustGraph.getAllCerts k (.ofSecs t) db = (.ok certs, s) ∧ dtos = certs.map Dto.ofCertificate := by
  obtain ⟨_, -, h⟩ := lift_bind_ok (into_ok h)
  obtain ⟨k, hk, h⟩ := lift_bind_ok h
  obtain ⟨certs, h, e⟩ := tg_map_ok h
  exact ⟨k, certs, hk, h, e⟩

theorem exportRevocations_inv {cp : CallParams} {peer : Str} {db s : Db} {dtos : List RevocationDto}
    (h : Service.exportRevocations cp peer db = (.ok ⟨true, none, dtos⟩, s)) :
    ∃ k rs, extractPublicKey peer = .ok k ∧ TrustGraph.getRevocations k db = (.ok rs, s) ∧ dtos = rs.map Dto.ofRevocation := by
  obtain ⟨k, hk, h⟩ := lift_bind_ok (into_ok h)
  obtain ⟨rs, h, e⟩ := tg_map_ok h
  exact ⟨k, rs, hk, h, e⟩

theorem getWeight_inv {cp : CallParams} {peer : Str} {t : UInt64} {db s : Db} {w : Nat × Str}
    (h : Service.getWeight cp peer t db = (.ok ⟨true, none, w⟩, s)) :
    ∃ k, extractPublicKey peer = .ok k ∧ TrustGraph.weight k (.ofSecs t) db = (.ok w.1, s) ∧ w.2 = peer := by
  obtain ⟨_, -, h⟩ := lift_bind_ok (into_ok h)
  obtain ⟨k, hk, h⟩ := lift_bind_ok h
  obtain ⟨v, h', rfl⟩ := tg_map_ok (f := fun v => (v, peer)) h
  exact ⟨k, hk, h', rfl⟩

omit [Env] in
theorem exists_map {α β : Type} {f : α → β} {P : α → Prop} {l : List β} (h : ∀ b ∈ l, ∃ a, f a = b ∧ P a) : ∃ l' : List α, l = l'.map f ∧ ∀ a ∈ l', P a := by
  induction l with
  | nil => exact ⟨[], rfl, fun _ h => absurd h List.not_mem_nil⟩
  | cons b l ih =>
    obtain ⟨a, rfl, ha⟩ := h b (.head _)
    obtain ⟨l', rfl, hl⟩ := ih fun b hb => h b (.tail _ hb)
    exact ⟨a :: l', rfl, fun x hx => (List.mem_cons.mp hx).elim (fun e => e ▸ ha) (hl x)⟩

theorem Spec.Served.append {xs ys : List (CallParams × Call)} {a b c : Db} (h : Spec.Served xs a b) (h' : Spec.Served ys b c) : Spec.Served (xs ++ ys) a c := by
  induction h with
  | nil => exact h'
  | cons h1 _ ih => exact .cons h1 (ih h')

omit [Env] in
theorem passesOn_status {lib : Db → Outcome TrustGraphError Unit × Db} {x : M Db Empty (Res Unit)} {db db' : Db}
    (h : Spec.PassesOn (lib db) id () (x db)) (hl : lib db = (.ok (), db')) : status x db = (.ok (true, none), db') := by
  unfold Spec.PassesOn at h
  rw [hl] at h
  unfold status
  rw [M.bind_run_ok h]
  rfl

end

variable [LawfulEnv]

/-- Handing over certificates by `insert_cert` is adding them. -/
theorem served_certs {cs : List (CallParams × Certificate × UInt64)} (hc : ∀ p ∈ cs, ∀ t ∈ p.2.1.chain, t.issuedFor.NotRsa ∧ t.WholeSeconds) :
    ∀ {db db' : Db}, addAll (cs.map fun p => (p.2.1, .ofSecs p.2.2)) db = (.ok (), db') →
      Spec.Served (cs.map fun p => (p.1, .insertCert (Dto.ofCertificate p.2.1) p.2.2)) db db' := by
  induction cs with
  | nil =>
    intro db db' h
    cases h
    exact .nil
  | cons p cs ih =>
    intro db db' h
    obtain ⟨_, d, h1, h2⟩ := M.bind_ok_inv h
    exact .cons (passesOn_status (lib := TrustGraph.add p.2.1 (.ofSecs p.2.2)) ((C75_updates p.1 db).2.2.2.1 p.2.1 p.2.2 (hc p (.head _))) h1)
      (ih (fun q hq => hc q (.tail _ hq)) h2)

theorem served_revocations {rs : List (CallParams × Revocation × UInt64)}
    (hc : ∀ q ∈ rs, q.2.1.pk.NotRsa ∧ q.2.1.revokedBy.NotRsa ∧ q.2.1.revokedAt.Whole ∧ q.1.FromHostClock 1 ∧ q.2.1.revokedAt.secs ≤ q.2.2) :
    ∀ {db db' : Db}, revokeAll (rs.map (·.2.1)) db = (.ok (), db') →
      Spec.Served (rs.map fun q => (q.1, .revoke (Dto.ofRevocation q.2.1) q.2.2)) db db' := by
  induction rs with
  | nil =>
    intro db db' h
    cases h
    exact .nil
  | cons q rs ih =>
    intro db db' h
    obtain ⟨_, d, h1, h2⟩ := M.bind_ok_inv h
    obtain ⟨c1, c2, c3, c4, c5⟩ := hc q (.head _)
    exact .cons (passesOn_status (lib := TrustGraph.revoke q.2.1) ((C75_updates q.1 db).2.2.1 q.2.1 q.2.2 c1 c2 c3 c4 c5) h1)
      (ih (fun q hq => hc q (.tail _ hq)) h2)

/-- **C120.** Certificates and revocations that one service gave out can be handed over to another one as they are, which has the same roots and no
relations: all calls report success, and afterwards both services give the same certificates and weights for every peer all of whose certificates have been
handed over. -/
theorem C120_mirror (hw : Env.wasm = true) {A B : Db} {asked : UInt64} {cs : List (CallParams × CertDto × UInt64)} {rs : List (CallParams × RevocationDto × UInt64)}
    (hA : Reachable A) (hB : Reachable B) (hf : B.NoFaults) (h : Spec.Mirrors A B asked cs rs)
    (hn : (cs.map (·.2.1.chain.length)).sum + rs.length + 16 < 2 ^ 32) :
    ∃ B', Spec.Served (Spec.mirrorCalls cs rs) B B' ∧
      ∀ cp peer dtos s, Service.getAllCerts cp peer asked A = (.ok ⟨true, none, dtos⟩, s) → (∀ d ∈ dtos, ∃ p ∈ cs, p.2.1 = d) →
        ∀ later : UInt64, asI64 asked ≤ asI64 later → ∀ cp cp' : CallParams,
          (∀ x y s s', Service.getAllCerts cp peer later A = (.ok ⟨true, none, x⟩, s) → Service.getAllCerts cp' peer later B' = (.ok ⟨true, none, y⟩, s') →
            ∀ d, d ∈ y ↔ d ∈ x) ∧
          (A.relations.length + 16 < 2 ^ 32 → ∀ w w' s s', Service.getWeight cp peer later A = (.ok ⟨true, none, w⟩, s) →
            Service.getWeight cp' peer later B' = (.ok ⟨true, none, w'⟩, s') → w' = w) := by
  have hp : ∀ pk : PublicKey, pk.NotRsa := C60_wasm_keys hw
  have hcs0 : ∀ p ∈ cs, ∃ a : CallParams × Certificate × UInt64, (a.1, Dto.ofCertificate a.2.1, a.2.2) = p ∧
      ∃ k certs s, TrustGraph.getAllCerts k (.ofSecs asked) A = (.ok certs, s) ∧ a.2.1 ∈ certs := by
    rintro ⟨cp, d, t⟩ hm
    obtain ⟨cp', peer, dtos, s, hg, hd⟩ := h.certs _ hm
    obtain ⟨k, certs, -, hg', rfl⟩ := getAllCerts_inv hg
    obtain ⟨c, hc, rfl⟩ := List.mem_map.mp hd
    exact ⟨(cp, c, t), rfl, k, certs, s, hg', hc⟩
  obtain ⟨cs, rfl, hcs⟩ := exists_map hcs0
  have hrs0 : ∀ q ∈ rs, ∃ a : CallParams × Revocation × UInt64, (a.1, Dto.ofRevocation a.2.1, a.2.2) = q ∧
      ∃ k answer s, TrustGraph.getRevocations k A = (.ok answer, s) ∧ a.2.1 ∈ answer := by
    rintro ⟨cp, d, t⟩ hm
    obtain ⟨cp', peer, dtos, s, hg, hd⟩ := h.revocations _ hm
    obtain ⟨k, answer, -, hg', rfl⟩ := exportRevocations_inv hg
    obtain ⟨r, hr, rfl⟩ := List.mem_map.mp hd
    exact ⟨(cp, r, t), rfl, k, answer, s, hg', hr⟩
  obtain ⟨rs, rfl, hrs⟩ := exists_map hrs0
  have hwhole : ∀ p ∈ cs, ∀ t ∈ p.2.1.chain, t.issuedFor.NotRsa ∧ t.WholeSeconds := by
    intro p hm t ht
    obtain ⟨k, certs, s, hg, hc⟩ := hcs p hm
    exact ⟨hp _, admissible_whole (((C02_complete_exactly_once hA.healthy hg).2 _).mp hc) t ht⟩
  have hstored : ∀ q ∈ rs, A.Stored (.revocation q.2.1) := by
    intro q hq
    obtain ⟨k, answer, s, hg, hr⟩ := hrs q hq
    exact (((C37_revocations_exact hA.healthy hg).2 _).mp hr).1
  have names : ∀ k : PublicKey, Spec.Names k.toPeerId.toBase58 k := fun k => extract_names (extractPublicKey_toPeerId k (hp k))
  have hcarried : Spec.Carried A B (.ofSecs asked) (cs.map fun p => (p.2.1, .ofSecs p.2.2)) := by
    refine ⟨h.empty, h.roots, ?_, ?_, ?_, ?_⟩
    · simp only [List.forall_mem_map]
      exact hcs
    · simp only [List.forall_mem_map]
      intro p hm t f ht hf
      have := h.limit _ (List.mem_map_of_mem hm) (Dto.ofTrust t) t.issuedFor f
        (by show (p.2.1.chain.map Dto.ofTrust)[0]? = _; rw [List.getElem?_map, ht]; rfl) (names _) hf
      rwa [show (Dto.ofCertificate p.2.1).chain.length = p.2.1.chain.length from List.length_map ..] at this
    · simp only [List.forall_mem_map]
      intro p hm q hq t ht
      exact h.live _ (List.mem_map_of_mem hm) _ (List.mem_map_of_mem hq) (Dto.ofTrust t) (List.mem_map_of_mem ht)
    · simp only [List.forall_mem_map]
      exact fun q hq => h.time _ (List.mem_map_of_mem hq)
  have hrev : Spec.CarriedRevocations A (cs.map fun p => (p.2.1, .ofSecs p.2.2)) (rs.map (·.2.1)) := by
    refine ⟨?_, ?_⟩
    · simp only [List.forall_mem_map]
      exact hrs
    · simp only [List.forall_mem_map]
      intro p hm k hk
      obtain ⟨t, ht, rfl⟩ := List.mem_map.mp hk
      obtain ⟨cp, dtos, s, hg, hall⟩ := h.complete _ (List.mem_map_of_mem hm) (Dto.ofTrust t) (List.mem_map_of_mem ht)
      obtain ⟨k, answer, hk, hg, rfl⟩ := exportRevocations_inv hg
      rw [show (Dto.ofTrust t).issuedFor = t.issuedFor.toPeerId.toBase58 from rfl, extractPublicKey_toPeerId _ (hp _)] at hk
      cases hk
      refine ⟨answer, s, hg, fun r hr => ?_⟩
      obtain ⟨q, hq, e⟩ := hall _ (List.mem_map_of_mem hr)
      obtain ⟨q, hq', rfl⟩ := List.mem_map.mp hq
      have h1 := C60_revocation_roundtrip r (hp _) (hp _) (((C37_revocations_exact hA.healthy hg).2 r).mp hr).1.1
      rw [← e, C60_revocation_roundtrip q.2.1 (hp _) (hp _) (hstored q hq').1] at h1
      cases h1
      exact List.mem_map_of_mem hq'
  have hn' : ((cs.map fun p => (p.2.1, Dur.ofSecs p.2.2)).map (·.1.chain.length)).sum + (rs.map (·.2.1)).length + 16 < 2 ^ 32 := by
    rw [List.map_map, List.length_map] at hn ⊢
    have e : cs.map ((fun x => x.2.1.chain.length) ∘ fun a => (a.1, Dto.ofCertificate a.2.1, a.2.2)) =
        cs.map ((fun x => x.1.chain.length) ∘ fun p => (p.2.1, Dur.ofSecs p.2.2)) :=
      List.map_congr_left fun p _ => List.length_map ..
    rwa [e] at hn
  obtain ⟨B', B'', h1, h2, h3, -⟩ := C118_carry_all hA hB hf hcarried hrev hn'
  refine ⟨B'', ?_, fun cp peer dtos s hg hall later hle cp1 cp2 => ?_⟩
  · unfold Spec.mirrorCalls
    rw [List.map_map, List.map_map]
    refine (served_certs hwhole h1).append (served_revocations (fun q hq => ⟨hp _, hp _, (hstored q hq).1, ?_⟩) h2)
    have := h.clock _ (List.mem_map_of_mem hq)
    exact ⟨this.1, UInt64.le_iff_toNat_le.mpr this.2⟩
  · obtain ⟨k, certs, hk, hg', rfl⟩ := getAllCerts_inv hg
    have hall' : ∀ c ∈ certs, ∃ p ∈ cs.map (fun p => (p.2.1, Dur.ofSecs p.2.2)), p.1 = c := by
      intro c hc
      obtain ⟨p, hm, e⟩ := hall _ (List.mem_map_of_mem hc)
      obtain ⟨p, hm', rfl⟩ := List.mem_map.mp hm
      have h1 := C60_certificate_roundtrip c fun t ht => ⟨hp _, admissible_whole (((C02_complete_exactly_once hA.healthy hg').2 _).mp hc) t ht⟩
      rw [← e, C60_certificate_roundtrip p.2.1 (hwhole p hm')] at h1
      cases h1
      exact ⟨_, List.mem_map_of_mem hm', rfl⟩
    obtain ⟨g1, g2⟩ := h3 k certs s hg' hall' (.ofSecs later) hle
    refine ⟨fun x y s s' hx hy d => ?_, fun hn w w' s s' hw hw' => ?_⟩
    · obtain ⟨k1, x, hk1, hx, rfl⟩ := getAllCerts_inv hx
      obtain ⟨k2, y, hk2, hy, rfl⟩ := getAllCerts_inv hy
      rw [hk] at hk1 hk2
      cases hk1; cases hk2
      simp only [List.mem_map, g1 x y s s' hx hy]
    · obtain ⟨k1, hk1, hw, e1⟩ := getWeight_inv hw
      obtain ⟨k2, hk2, hw', e2⟩ := getWeight_inv hw'
      rw [hk] at hk1 hk2
      cases hk1; cases hk2
      exact Prod.ext ((g2 hn).1 _ _ _ _ hw hw') (e2.trans e1.symm)

end TG
