/-
Property C75: the service answers what the library answers.

`LawfulEnv` is needed only to read peer ids back.
-/
import Verif.Props.ServiceFlow
import Verif.Props.Formats

namespace TG
open TG.Service
variable [LawfulEnv]

/-- The service passes on the answer of the library: the same effect on the database, the converted value as payload of a successful
record, or a failed record with the error of the library. -/
def Spec.PassesOn {α β : Type} (lib : Outcome TrustGraphError α × Db) (convert : α → β) (neutral : β)
    (res : Outcome Empty (Res β) × Db) : Prop :=
  res = (match lib.1 with
    | .ok a => .ok ⟨true, none, convert a⟩
    | .err e => .ok ⟨false, some (.tgError e), neutral⟩
    | .panic => .panic
    | .diverge => .diverge, lib.2)

omit [LawfulEnv] in
theorem passesOn_into {α β : Type} (x : M Db TrustGraphError α) (f : α → β) (n : β) (db : Db) :
    Spec.PassesOn (x db) f n (into n (tg x >>= fun a => pure (f a)) db) := by
  have h : (tg x >>= fun a => (pure (f a) : M Db ServiceError β)) db = ((match (x db).1 with
      | .ok a => .ok (f a)
      | .err e => .err (.tgError e)
      | .panic => .panic
      | .diverge => .diverge : Outcome ServiceError β), (x db).2) := by
    rw [M.bind_run]
    unfold tg
    rw [M.mapErr_run]
    rcases x db with ⟨_ | _ | _ | _, s⟩ <;> rfl
  unfold into Spec.PassesOn
  rw [h]
  rcases x db with ⟨_ | _ | _ | _, s⟩ <;> rfl

omit [LawfulEnv] in
theorem passesOn_into' {α : Type} (x : M Db TrustGraphError α) (n : α) (db : Db) :
    Spec.PassesOn (x db) id n (into n (tg x) db) := by
  unfold into tg M.mapErr Spec.PassesOn
  rcases x db with ⟨_ | _ | _ | _, s⟩ <;> rfl

omit [LawfulEnv] in
theorem into_lift_ok {α β : Type} {o : Outcome ServiceError α} {a : α} (h : o = .ok a) (f : α → M Db ServiceError β) (n : β) (db : Db) :
    into n (M.lift o >>= f) db = into n (f a) db := by
  unfold into
  rw [h]
  rfl

/-- **C75** for the queries about certificates. -/
theorem C75_certificate_queries (cp : CallParams) (pk issuer : PublicKey) (hp : pk.NotRsa) (hi : issuer.NotRsa) (t : UInt64) (db : Db) :
    (cp.FromHostClock 1 → Spec.PassesOn (TrustGraph.getAllCerts pk (.ofSecs t) db) (List.map Dto.ofCertificate) []
      (Service.getAllCerts cp pk.toPeerId.toBase58 t db)) ∧
    (cp.FromHostClock 2 → Spec.PassesOn (TrustGraph.getAllCertsFrom pk issuer (.ofSecs t) db) (List.map Dto.ofCertificate) []
      (Service.getAllCertsFrom cp pk.toPeerId.toBase58 issuer.toPeerId.toBase58 t db)) ∧
    (cp.FromHostClock 0 → cp.hostId = pk.toPeerId.toBase58 →
      Spec.PassesOn (TrustGraph.getAllCerts pk (.ofSecs t) db) (List.map Dto.ofCertificate) [] (Service.getHostCerts cp t db)) ∧
    (cp.FromHostClock 1 → cp.hostId = pk.toPeerId.toBase58 →
      Spec.PassesOn (TrustGraph.getAllCertsFrom pk issuer (.ofSecs t) db) (List.map Dto.ofCertificate) []
        (Service.getHostCertsFrom cp issuer.toPeerId.toBase58 t db)) := by
  have ep := extractPublicKey_toPeerId pk hp
  have ei := extractPublicKey_toPeerId issuer hi
  refine ⟨fun hc => ?_, fun hc => ?_, fun hc hh => ?_, fun hc hh => ?_⟩
  · unfold Service.getAllCerts getCerts
    rw [into_lift_ok ((checkTimestamp_iff cp 1).mpr hc), into_lift_ok ep]
    exact passesOn_into _ _ _ _
  · unfold Service.getAllCertsFrom getCertsFrom
    rw [into_lift_ok ((checkTimestamp_iff cp 2).mpr hc), into_lift_ok ep, into_lift_ok ei]
    exact passesOn_into _ _ _ _
  · unfold Service.getHostCerts getCerts
    rw [into_lift_ok ((checkTimestamp_iff cp 0).mpr hc), hh, into_lift_ok ep]
    exact passesOn_into _ _ _ _
  · unfold Service.getHostCertsFrom getCertsFrom
    rw [into_lift_ok ((checkTimestamp_iff cp 1).mpr hc), hh, into_lift_ok ep, into_lift_ok ei]
    exact passesOn_into _ _ _ _

/-- **C75** for the queries about weights and revocations. -/
theorem C75_other_queries (cp : CallParams) (pk issuer : PublicKey) (hp : pk.NotRsa) (hi : issuer.NotRsa) (t : UInt64) (db : Db) :
    (cp.FromHostClock 1 → Spec.PassesOn (TrustGraph.weight pk (.ofSecs t) db) (fun w => (w, pk.toPeerId.toBase58)) (0, [])
      (Service.getWeight cp pk.toPeerId.toBase58 t db)) ∧
    (cp.FromHostClock 1 → Spec.PassesOn (TrustGraph.weightFrom pk issuer (.ofSecs t) db) (fun w => (w, pk.toPeerId.toBase58)) (0, [])
      (Service.getWeightFrom cp pk.toPeerId.toBase58 issuer.toPeerId.toBase58 t db)) ∧
    Spec.PassesOn (TrustGraph.getRevocations pk db) (List.map Dto.ofRevocation) []
      (Service.exportRevocations cp pk.toPeerId.toBase58 db) := by
  have ep := extractPublicKey_toPeerId pk hp
  have ei := extractPublicKey_toPeerId issuer hi
  refine ⟨fun hc => ?_, fun hc => ?_, ?_⟩
  · unfold Service.getWeight
    rw [into_lift_ok ((checkTimestamp_iff cp 1).mpr hc), into_lift_ok ep]
    exact passesOn_into _ _ _ _
  · unfold Service.getWeightFrom
    rw [into_lift_ok ((checkTimestamp_iff cp 1).mpr hc), into_lift_ok ep, into_lift_ok ei]
    exact passesOn_into _ _ _ _
  · unfold Service.exportRevocations
    rw [into_lift_ok ep]
    exact passesOn_into _ _ _ _

/-- **C75** for the updates.  `insert_cert` accepts any timestamp (C58). -/
theorem C75_updates (cp : CallParams) (db : Db) :
    (∀ (pk : PublicKey) (n : UInt32), pk.NotRsa → cp.initPeerId = cp.serviceCreatorPeerId →
      Spec.PassesOn (TrustGraph.setRoot pk n.toNat db) id () (Service.setRoot cp pk.toPeerId.toBase58 n db)) ∧
    (∀ (trust : Trust) (issuer : PublicKey) (t : UInt64), trust.issuedFor.NotRsa → trust.WholeSeconds → issuer.NotRsa →
      cp.FromHostClock 2 → trust.issuedAt.secs ≤ t →
      Spec.PassesOn (TrustGraph.addTrust trust issuer (.ofSecs t) db) id 0
        (Service.addTrust cp (Dto.ofTrust trust) issuer.toPeerId.toBase58 t db)) ∧
    (∀ (r : Revocation) (t : UInt64), r.pk.NotRsa → r.revokedBy.NotRsa → r.revokedAt.Whole → cp.FromHostClock 1 →
      r.revokedAt.secs ≤ t →
      Spec.PassesOn (TrustGraph.revoke r db) id () (Service.revoke cp (Dto.ofRevocation r) t db)) ∧
    (∀ (c : Certificate) (t : UInt64), (∀ t ∈ c.chain, t.issuedFor.NotRsa ∧ t.WholeSeconds) →
      Spec.PassesOn (TrustGraph.add c (.ofSecs t) db) id () (Service.insertCert cp (Dto.ofCertificate c) t db)) ∧
    (∀ (c : Certificate) (t : UInt64), (∀ t ∈ c.chain, t.WholeSeconds) →
      Spec.PassesOn (TrustGraph.add c (.ofSecs t) db) id () (Service.insertCertRaw cp c.toText t db)) := by
  refine ⟨fun pk n hp ho => ?_, fun trust issuer t hp hw hi hc hle => ?_, fun r t hp hb hw hc hle => ?_, fun c t h => ?_,
    fun c t h => ?_⟩
  · unfold Service.setRoot
    rw [if_pos ho.symm, into_lift_ok (extractPublicKey_toPeerId pk hp)]
    exact passesOn_into' _ _ _
  · unfold Service.addTrust
    rw [into_lift_ok (extractPublicKey_toPeerId _ hi), into_lift_ok ((checkTimestamp_iff cp 2).mpr hc),
      if_neg (show ¬ (Dto.ofTrust trust).issuedAt.toNat > t.toNat from Nat.not_lt.mpr (UInt64.le_iff_toNat_le.mp hle)),
      into_lift_ok (congrArg (Outcome.mapErr ServiceError.dtoError) (C60_trust_roundtrip trust hp hw))]
    exact passesOn_into' _ _ _
  · unfold Service.revoke
    rw [into_lift_ok ((checkTimestamp_iff cp 1).mpr hc),
      if_neg (show ¬ (Dto.ofRevocation r).revokedAt.toNat > t.toNat from Nat.not_lt.mpr (UInt64.le_iff_toNat_le.mp hle)),
      into_lift_ok (congrArg (Outcome.mapErr ServiceError.dtoError) (C60_revocation_roundtrip r hp hb hw))]
    exact passesOn_into' _ _ _
  · unfold Service.insertCert
    rw [into_lift_ok (congrArg (Outcome.mapErr ServiceError.dtoError) (C60_certificate_roundtrip c h))]
    exact passesOn_into' _ _ _
  · unfold Service.insertCertRaw
    rw [into_lift_ok (congrArg (Outcome.mapErr ServiceError.certError) (C48_text_roundtrip c h))]
    exact passesOn_into' _ _ _

/-- **C75**, `verify_trust`: the answer of `Trust::verify`. -/
theorem C75_verify_trust (cp : CallParams) (trust : Trust) (issuer : PublicKey) (t : UInt64) (hp : trust.issuedFor.NotRsa)
    (hw : trust.WholeSeconds) (hi : issuer.NotRsa) (hc : cp.FromHostClock 2) (db : Db) :
    Service.verifyTrust cp (Dto.ofTrust trust) issuer.toPeerId.toBase58 t db = (match trust.verify issuer (.ofSecs t) with
      | .ok _ => .ok ⟨true, none, ()⟩
      | .err e => .ok ⟨false, some (.trustError e), ()⟩
      | .panic => .panic
      | .diverge => .diverge, db) := by
  unfold Service.verifyTrust
  rw [into_lift_ok ((checkTimestamp_iff cp 2).mpr hc), into_lift_ok (extractPublicKey_toPeerId _ hi),
    into_lift_ok (congrArg (Outcome.mapErr ServiceError.dtoError) (C60_trust_roundtrip trust hp hw))]
  unfold into
  cases trust.verify issuer (.ofSecs t) <;> rfl

/-- The certificates of a snapshot of a database have whole-second times. -/
theorem admissible_whole {db : Db} {now : Dur} {pk : PublicKey} {c : Certificate}
    (h : Spec.Admissible (db.snapshot now) pk c) : ∀ t ∈ c.chain, t.WholeSeconds := by
  intro t ht
  obtain ⟨i, hi, rfl⟩ := List.getElem_of_mem ht
  rcases i with _ | i
  · have := (h.linked.root _ (List.getElem?_eq_getElem hi)).2.1.1
    exact ⟨this.2, this.1⟩
  · have := (h.linked.link i _ _ (List.getElem?_eq_getElem (by omega)) (List.getElem?_eq_getElem hi)).1.1
    exact ⟨this.2, this.1⟩

/-- **C75**, end to end, in the environment the service runs in (wasm32): on every reachable database `get_all_certs` succeeds, and its
records, read back, are exactly the admissible certificates of the peer, each once, shortest first. -/
theorem C75_get_all_certs_end_to_end (hw : Env.wasm = true) (cp : CallParams) (hc : cp.FromHostClock 1) (pk : PublicKey) (t : UInt64)
    {db : Db} (hr : Reachable db) (hf : db.NoFaults) :
    ∃ (dtos : List CertDto) (cs : List Certificate), (Service.getAllCerts cp pk.toPeerId.toBase58 t db).1 = .ok ⟨true, none, dtos⟩ ∧
      dtos.map Dto.toCertificate = cs.map .ok ∧ cs.Nodup ∧
      cs.Pairwise (fun c c' => c.chain.length ≤ c'.chain.length) ∧
      ∀ c, c ∈ cs ↔ Spec.Admissible (db.snapshot (.ofSecs t)) pk c := by
  have hp : ∀ pk : PublicKey, pk.NotRsa := C60_wasm_keys hw
  have hq := Db.getAllCerts_eq hr.healthy hf pk (.ofSecs t)
  have h2 := C02_complete_exactly_once hr.healthy hq
  have h3 := C03_shortest_first hr.healthy hq
  have ha := (C75_certificate_queries cp pk pk (hp _) (hp _) t db).1 hc
  rw [hq] at ha
  refine ⟨_, _, congrArg Prod.fst ha, ?_, h2.1, h3, h2.2⟩
  rw [List.map_map]
  refine List.map_congr_left fun c hcm => ?_
  exact C60_certificate_roundtrip c fun t ht => ⟨hp _, admissible_whole ((h2.2 c).mp hcm) t ht⟩

end TG
