/-
Properties C77–C81: the published Aqua functions.

`LawfulEnv`: the signature schemes accept what they sign, and protobuf messages are read back.
-/
import Verif.Model.AquaApi
import Verif.Props.ServiceAnswers
import Verif.Props.Effect

namespace TG
open TG.Service
variable [LawfulEnv]

/-! ### C77, C78: queries -/

/-- **C77.** The Aqua queries answer what the library answers at the time of the clock of the node, whatever the origins of their other
arguments. -/
theorem C77_queries (n : Node) (o0 o1 : List Tetraplet) (pk issuer : PublicKey) (hp : pk.NotRsa) (hi : issuer.NotRsa) (db : Db) :
    Spec.PassesOn (TrustGraph.weight pk (.ofSecs n.now) db) (fun w => (w, pk.toPeerId.toBase58)) (0, [])
      (Aqua.getWeight n o0 pk.toPeerId.toBase58 db) ∧
    Spec.PassesOn (TrustGraph.getAllCerts pk (.ofSecs n.now) db) (List.map Dto.ofCertificate) []
      (Aqua.getAllCerts n o0 pk.toPeerId.toBase58 db) ∧
    Spec.PassesOn (TrustGraph.getAllCertsFrom pk issuer (.ofSecs n.now) db) (List.map Dto.ofCertificate) []
      (Aqua.getAllCertsFrom n o0 o1 pk.toPeerId.toBase58 issuer.toPeerId.toBase58 db) :=
  ⟨(C75_other_queries _ pk issuer hp hi _ db).1 ⟨[], rfl⟩, (C75_certificate_queries _ pk issuer hp hi _ db).1 ⟨[], rfl⟩,
    (C75_certificate_queries _ pk issuer hp hi _ db).2.1 ⟨[], rfl⟩⟩

/-- **C77** for the queries about the node itself. -/
theorem C77_host_queries (n : Node) (o0 : List Tetraplet) (host issuer : PublicKey) (hn : n.host = host.toPeerId.toBase58)
    (hp : host.NotRsa) (hi : issuer.NotRsa) (db : Db) :
    Spec.PassesOn (TrustGraph.getAllCerts host (.ofSecs n.now) db) (List.map Dto.ofCertificate) [] (Aqua.getHostCerts n db) ∧
    Spec.PassesOn (TrustGraph.getAllCertsFrom host issuer (.ofSecs n.now) db) (List.map Dto.ofCertificate) []
      (Aqua.getHostCertsFrom n o0 issuer.toPeerId.toBase58 db) :=
  ⟨(C75_certificate_queries _ host issuer hp hi _ db).2.2.1 ⟨[], rfl⟩ hn,
    (C75_certificate_queries _ host issuer hp hi _ db).2.2.2 ⟨[], rfl⟩ hn⟩

/-- **C77** for `insert_cert` and `verify_trust`. -/
theorem C77_insert_and_verify (n : Node) (o0 o1 : List Tetraplet) (db : Db) :
    (∀ c : Certificate, (∀ t ∈ c.chain, t.issuedFor.NotRsa ∧ t.WholeSeconds) →
      Spec.PassesOn (TrustGraph.add c (.ofSecs n.now) db) id () (Aqua.insertCert n o0 (Dto.ofCertificate c) db)) ∧
    (∀ (trust : Trust) (issuer : PublicKey), trust.issuedFor.NotRsa → trust.WholeSeconds → issuer.NotRsa →
      Aqua.verifyTrust n o0 o1 (Dto.ofTrust trust) issuer.toPeerId.toBase58 db =
        (match trust.verify issuer (.ofSecs n.now) with
          | .ok _ => .ok ⟨true, none, ()⟩
          | .err e => .ok ⟨false, some (.trustError e), ()⟩
          | .panic => .panic
          | .diverge => .diverge, db)) :=
  ⟨fun c h => (C75_updates _ db).2.2.2.1 c n.now h, fun trust issuer hp hw hi => C75_verify_trust _ trust issuer n.now hp hw hi ⟨[], rfl⟩ db⟩

/-- What the caller of `get_weight_from` counts on: the answer of `weight_from` at the time of the node, whatever the origins of the other
arguments. -/
def C78_statement : Prop :=
  ∀ (n : Node) (o0 o1 : List Tetraplet) (pk issuer : PublicKey) (db : Db), pk.NotRsa → issuer.NotRsa →
    Spec.PassesOn (TrustGraph.weightFrom pk issuer (.ofSecs n.now) db) (fun w => (w, pk.toPeerId.toBase58)) (0, [])
      (Aqua.getWeightFrom n o0 o1 pk.toPeerId.toBase58 issuer.toPeerId.toBase58 db)

/-- **C78**, what holds: it answers `weight_from` if and only if the *issuer* comes from the clock of the node; in every other case the call is
refused without effect.  No peer id that was written down, computed or returned by another service comes from there, so it is always refused:
`C78_get_weight_from_fails`. -/
theorem C78_get_weight_from_partial (n : Node) (o0 o1 : List Tetraplet) (pk issuer : PublicKey) (db : Db) (hp : pk.NotRsa)
    (hi : issuer.NotRsa) :
    ((∃ rest, o1 = ⟨n.host, "peer".toList, "timestamp_sec".toList⟩ :: rest) →
      Spec.PassesOn (TrustGraph.weightFrom pk issuer (.ofSecs n.now) db) (fun w => (w, pk.toPeerId.toBase58)) (0, [])
        (Aqua.getWeightFrom n o0 o1 pk.toPeerId.toBase58 issuer.toPeerId.toBase58 db)) ∧
    ((¬ ∃ rest, o1 = ⟨n.host, "peer".toList, "timestamp_sec".toList⟩ :: rest) →
      Aqua.getWeightFrom n o0 o1 pk.toPeerId.toBase58 issuer.toPeerId.toBase58 db =
        (.ok ⟨false, some .invalidTimestampTetraplet, (0, [])⟩, db)) := by
  constructor
  · rintro ⟨rest, rfl⟩
    exact (C75_other_queries (n.call [o0, _, n.clock]) pk issuer hp hi _ db).2.1 ⟨rest, rfl⟩
  · intro h
    have hc : ¬ (n.call [o0, o1, n.clock]).FromHostClock 1 := by
      rintro ⟨rest, hr⟩
      exact h ⟨rest, Option.some.inj hr⟩
    unfold Aqua.getWeightFrom Service.getWeightFrom into
    rw [checkTimestamp_err hc]
    rfl

/-! ### C79: add_trust -/

/-- The trust made by the Aqua functions. -/
def Spec.issuedTrust (pk : PublicKey) (expiresAt issuedAt : UInt64) (signature : Bytes) : Trust :=
  ⟨pk, .ofSecs expiresAt, Signature.fromBytes pk.keyFormat signature, .ofSecs issuedAt⟩

/-- The signature service signs with this key. -/
def Spec.SignsWith (sig : SigService) (kp : KeyPair) : Prop := ∀ b s, kp.sign b = .ok s → sig b = some s.raw

theorem getTrustBytes_eq (cp : CallParams) (pk : PublicKey) (hp : pk.NotRsa) (e i : UInt64) (db : Db) :
    Service.getTrustBytes cp pk.toPeerId.toBase58 e i db
      = (.ok ⟨true, none, Trust.signatureBytes pk (.ofSecs e) (.ofSecs i)⟩, db) := by
  unfold Service.getTrustBytes
  rw [into_lift_ok (extractPublicKey_toPeerId pk hp)]
  rfl

theorem issueTrust_eq (relay : Node) (sig : SigService) (pk : PublicKey) (hp : pk.NotRsa) (e : UInt64) (db : Db) :
    Aqua.issueTrust relay sig pk.toPeerId.toBase58 e db =
      (match sig (Trust.signatureBytes pk (.ofSecs e) (.ofSecs relay.now)) with
        | some s => .ok (some (Dto.ofTrust (Spec.issuedTrust pk e relay.now s)), none)
        | none => .ok (none, some .sig), db) := by
  unfold Aqua.issueTrust
  rw [M.bind_run_ok (getTrustBytes_eq _ pk hp e relay.now db)]
  dsimp only
  rw [if_pos rfl]
  rcases sig (Trust.signatureBytes pk (.ofSecs e) (.ofSecs relay.now)) with _ | s
  · rfl
  · have h : Service.issueTrust (relay.call []) pk.toPeerId.toBase58 e relay.now s db
        = (.ok ⟨true, none, Dto.ofTrust (Spec.issuedTrust pk e relay.now s)⟩, db) := by
      unfold Service.issueTrust
      rw [into_lift_ok (extractPublicKey_toPeerId pk hp)]
      rfl
    dsimp only
    rw [M.bind_run_ok h]
    rfl

/-- **C79**: issuing on the relay only reads, whatever the arguments. -/
theorem C79_issue_reads_only (relay : Node) (sig : SigService) (a b : Str) (e : UInt64) (db : Db) :
    (Aqua.issueTrust relay sig a e db).2 = db ∧ (Aqua.issueRevocation relay sig a b db).2 = db := by
  have hr : ∀ s : Db, s = s := fun _ => rfl
  have ht : ∀ a b c : Db, a = b → b = c → a = c := fun _ _ _ => Eq.trans
  have hi : ∀ {α β : Type} (v : β) (o : Outcome ServiceError α) (f : α → M Db ServiceError β),
      (∀ a, Steps (S := Db) Eq (f a)) → Steps (S := Db) Eq (into v (M.lift o >>= f)) :=
    fun v o f h s => (Steps.lift_bind hr fun a _ => h a) s
  constructor
  · refine Eq.symm <| (Steps.bind ht (hi _ _ _ fun _ => .pure hr _) fun r => ?_) db
    split
    · split
      · refine (hi _ _ _ fun _ => .pure hr _).bind ht fun r => ?_
        split <;> exact .pure hr _
      · exact .pure hr _
    · exact .pure hr _
  · refine Eq.symm <| (Steps.bind ht (hi _ _ _ fun _ => .pure hr _) fun r => ?_) db
    split
    · split
      · refine (hi _ _ _ fun _ => Steps.lift_bind hr fun _ _ => .pure hr _).bind ht fun r => ?_
        split <;> exact .pure hr _
      · exact .pure hr _
    · exact .pure hr _

/-- An Aqua function reports the outcome of a call of the library: same effect, no error if it succeeded, else its error. -/
def Spec.Reports {α : Type} (lib : Outcome TrustGraphError α × Db) (res : Outcome Empty (Option AquaError) × Db) : Prop :=
  res = (match lib.1 with
    | .ok _ => .ok none
    | .err e => .ok (some (.service (.tgError e)))
    | .panic => .panic
    | .diverge => .diverge, lib.2)

omit [LawfulEnv] in
/-- From the record of the service to the optional error. -/
theorem reports_of_passesOn {α β : Type} {lib : Outcome TrustGraphError α × Db} {f : α → β} {n : β} {x : M Db Empty (Res β)} {db : Db}
    (h : Spec.PassesOn lib f n (x db)) :
    Spec.Reports lib ((x >>= fun r => pure (Aqua.errorOf r) : M Db Empty (Option AquaError)) db) := by
  unfold Spec.PassesOn at h
  unfold Spec.Reports
  rw [M.bind_run, h]
  rcases lib with ⟨_ | _ | _ | _, s⟩ <;> rfl

omit [LawfulEnv] in
/-- If no error is reported, the library has succeeded. -/
theorem Spec.Reports.none {α : Type} {lib : Outcome TrustGraphError α × Db} {db' : Db} (h : Spec.Reports lib (.ok none, db')) :
    ∃ a, lib = (.ok a, db') := by
  unfold Spec.Reports at h
  rcases lib with ⟨a | e | _ | _, s⟩ <;> cases h
  exact ⟨a, rfl⟩

/-- The trust verifies with the key of the signer exactly until it expires. -/
theorem issuedTrust_verify {sig : SigService} {kp : KeyPair} (hs : Spec.SignsWith sig kp) (hk : kp.pub.NotRsa) (pk : PublicKey)
    (e i : UInt64) : ∃ s, sig (Trust.signatureBytes pk (.ofSecs e) (.ofSecs i)) = some s ∧
      ∀ now : Dur, (Spec.issuedTrust pk e i s).verify kp.pub now = .ok () ↔ now.total ≤ (Dur.ofSecs e).total := by
  obtain ⟨sg, hsg⟩ := kp.sign_ok _ (kp.canSign_of_notRsa hk (Trust.signatureBytes pk (.ofSecs e) (.ofSecs i)))
  refine ⟨sg.raw, hs _ _ hsg, fun now => ?_⟩
  rw [C38_verify_decides]
  refine ⟨fun h => h.1, fun h => ⟨h, ?_⟩⟩
  show kp.pub.verify (Trust.signatureBytes pk (.ofSecs e) (.ofSecs i)) (Signature.fromBytes pk.keyFormat sg.raw) = .ok ()
  rw [C43_relabel]
  exact C41_genuine_accepted _ _ _ (C42_sign_genuine _ _ _ hsg)

/-- `import_trust` of a trust issued later than the clock of the node shows. -/
theorem importTrust_early (n : Node) (o0 o1 : List Tetraplet) (pk issuer : PublicKey) (hi : issuer.NotRsa) (e i : UInt64) (s : Bytes)
    (h : n.now < i) (db : Db) :
    Aqua.importTrust n o0 o1 (Dto.ofTrust (Spec.issuedTrust pk e i s)) issuer.toPeerId.toBase58 db
      = (.ok (some (.service .invalidTimestamp)), db) := by
  have hs : Service.addTrust (n.call [o0, o1, n.clock]) (Dto.ofTrust (Spec.issuedTrust pk e i s)) issuer.toPeerId.toBase58 n.now db
      = (.ok ⟨false, some .invalidTimestamp, 0⟩, db) := by
    unfold Service.addTrust
    rw [into_lift_ok (extractPublicKey_toPeerId _ hi), into_lift_ok ((checkTimestamp_iff _ 2).mpr ⟨[], rfl⟩),
      if_pos (show (Dto.ofTrust (Spec.issuedTrust pk e i s)).issuedAt.toNat > n.now.toNat from UInt64.lt_iff_toNat_lt.mp h)]
    rfl
  unfold Aqua.importTrust
  rw [M.bind_run_ok hs]
  rfl

theorem importTrust_reports (n : Node) (o0 o1 : List Tetraplet) (pk issuer : PublicKey) (hp : pk.NotRsa) (hi : issuer.NotRsa)
    (e i : UInt64) (s : Bytes) (h : i ≤ n.now) (db : Db) :
    Spec.Reports (TrustGraph.addTrust (Spec.issuedTrust pk e i s) issuer (.ofSecs n.now) db)
      (Aqua.importTrust n o0 o1 (Dto.ofTrust (Spec.issuedTrust pk e i s)) issuer.toPeerId.toBase58 db) :=
  reports_of_passesOn ((C75_updates (n.call [o0, o1, n.clock]) db).2.1 (Spec.issuedTrust pk e i s) issuer n.now hp ⟨rfl, rfl⟩ hi
    ⟨[], rfl⟩ h)

theorem addTrust_aqua_eq {relay : Node} {relayDb : Db} {sig : SigService} {n : Node} {o0 o1 : List Tetraplet} {issuer : Str}
    {pk : PublicKey} (hp : pk.NotRsa) {e : UInt64} {s : Bytes}
    (hs : sig (Trust.signatureBytes pk (.ofSecs e) (.ofSecs relay.now)) = some s) (db : Db) :
    Aqua.addTrust relay relayDb sig n o0 o1 issuer pk.toPeerId.toBase58 e db
      = Aqua.importTrust n o0 o1 (Dto.ofTrust (Spec.issuedTrust pk e relay.now s)) issuer db := by
  unfold Aqua.addTrust
  rw [issueTrust_eq relay sig pk hp e relayDb, hs]
  rw [M.bind_run_ok (M.lift_run _ _)]
  dsimp only
  unfold Aqua.appendError
  rw [M.bind_run]
  rcases Aqua.importTrust n o0 o1 (Dto.ofTrust (Spec.issuedTrust pk e relay.now s)) issuer db with ⟨_ | _ | _ | _, _⟩ <;> rfl

/-- What the caller of `add_trust` counts on: if no error is reported, the node now stores a trust of the issuer in this key. -/
def C79_statement : Prop :=
  ∀ (relay n : Node) (relayDb db db' : Db) (sig : SigService) (kp : KeyPair) (pk : PublicKey) (o0 o1 : List Tetraplet) (e : UInt64),
    Reachable db → kp.pub.NotRsa → pk.NotRsa → Spec.SignsWith sig kp →
    Aqua.addTrust relay relayDb sig n o0 o1 kp.pub.toPeerId.toBase58 pk.toPeerId.toBase58 e db = (.ok none, db') →
    ∃ t, t.issuedFor = pk ∧ db'.Stored (.auth ⟨t, kp.pub⟩)

/-- **C79**, exact behaviour: with a signature service that signs with the key of the issuer, `add_trust` makes a trust dated by the clock of the
relay, which verifies exactly until it expires.  If the clock of the node is behind that of the relay, the import is refused without effect;
otherwise the outcome is that of `add_trust` of the library for this trust at the time of the node. -/
theorem C79_add_trust (relay n : Node) (relayDb db : Db) (sig : SigService) (kp : KeyPair) (pk : PublicKey) (o0 o1 : List Tetraplet)
    (e : UInt64) (hk : kp.pub.NotRsa) (hp : pk.NotRsa) (hs : Spec.SignsWith sig kp) :
    ∃ t : Trust, t.issuedFor = pk ∧ t.expiresAt = .ofSecs e ∧ t.issuedAt = .ofSecs relay.now ∧
      (∀ now : Dur, t.verify kp.pub now = .ok () ↔ now.total ≤ (Dur.ofSecs e).total) ∧
      (n.now < relay.now →
        Aqua.addTrust relay relayDb sig n o0 o1 kp.pub.toPeerId.toBase58 pk.toPeerId.toBase58 e db
          = (.ok (some (.service .invalidTimestamp)), db)) ∧
      (relay.now ≤ n.now →
        Spec.Reports (TrustGraph.addTrust t kp.pub (.ofSecs n.now) db)
          (Aqua.addTrust relay relayDb sig n o0 o1 kp.pub.toPeerId.toBase58 pk.toPeerId.toBase58 e db)) := by
  obtain ⟨s, h1, h2⟩ := issuedTrust_verify hs hk pk e relay.now
  refine ⟨_, rfl, rfl, rfl, h2, fun h => ?_, fun h => ?_⟩
  · rw [addTrust_aqua_eq hp h1]
    exact importTrust_early n o0 o1 pk kp.pub hk e relay.now s h db
  · rw [addTrust_aqua_eq hp h1]
    exact importTrust_reports n o0 o1 pk kp.pub hp hk e relay.now s h db

/-- **C79**: an error of the signature service is reported, and nothing happens on the node. -/
theorem C79_sig_error (relay n : Node) (relayDb db : Db) (sig : SigService) (pk : PublicKey) (o0 o1 : List Tetraplet) (issuer : Str)
    (e : UInt64) (hp : pk.NotRsa) (hs : sig (Trust.signatureBytes pk (.ofSecs e) (.ofSecs relay.now)) = none) :
    Aqua.addTrust relay relayDb sig n o0 o1 issuer pk.toPeerId.toBase58 e db = (.ok (some .sig), db) := by
  unfold Aqua.addTrust
  rw [issueTrust_eq relay sig pk hp e relayDb, hs]
  rfl

/-- **C79**, what holds of the expectation: if no error is reported, either the weight of the issuer was too small to pass any on, or the node stores
a relation of the two keys dated by the clock of the relay or later.  The other cases: `C79_add_trust_fails`. -/
theorem C79_no_error_partial {relay n : Node} {relayDb db db' : Db} {sig : SigService} {kp : KeyPair} {pk : PublicKey}
    {o0 o1 : List Tetraplet} {e : UInt64} (hr : Reachable db) (hk : kp.pub.NotRsa) (hp : pk.NotRsa) (hs : Spec.SignsWith sig kp)
    (h : Aqua.addTrust relay relayDb sig n o0 o1 kp.pub.toPeerId.toBase58 pk.toPeerId.toBase58 e db = (.ok none, db')) :
    (∃ w s, TrustGraph.weight kp.pub (.ofSecs n.now) db = (.ok w, s) ∧ (if kp.pub = pk then w else w / 2) = 0) ∨
    ∃ q, db'.Stored q ∧ q.issuedFor = pk ∧ q.issuedBy = kp.pub ∧ (Dur.ofSecs relay.now).total ≤ q.issuedAt.total := by
  obtain ⟨t, h1, h2, h3, -, h4, h5⟩ := C79_add_trust relay n relayDb db sig kp pk o0 o1 e hk hp hs
  rcases UInt64.lt_or_le n.now relay.now with hlt | hle
  · rw [h4 hlt] at h; cases h
  have h5 := h5 hle
  rw [h] at h5
  obtain ⟨w, hw⟩ := h5.none
  rcases Nat.eq_zero_or_pos w with rfl | hpos
  · obtain ⟨-, wi, s1, ha, hb, -⟩ := C20_returned_weight hw
    exact .inl ⟨wi, s1, ha, by rw [← h1]; exact hb.symm⟩
  · obtain ⟨⟨q, hq, hqp, hqt⟩, -⟩ := C76_add_trust_takes_effect hr hw (Nat.pos_iff_ne_zero.mp hpos)
    refine .inr ⟨q, hq, hqp.1.trans h1, hqp.2, ?_⟩
    rcases hqt with rfl | hqt
    · rw [TrustRelation.trunc_issuedAt]
      show _ ≤ t.issuedAt.trunc.total
      rw [h3]; exact Nat.le_refl _
    · rw [← h3]; exact hqt

/-! ### C80: add_root_trust -/

/-- What the caller of `add_root_trust` counts on: if an error is reported, nothing has happened on the node. -/
def C80_statement : Prop :=
  ∀ (relay n : Node) (relayDb db db' : Db) (sig : SigService) (kp : KeyPair) (o0 o1 : List Tetraplet) (origins : List (List Tetraplet))
    (maxChainLen : UInt32) (e : UInt64) (err : AquaError),
    Reachable db → kp.pub.NotRsa → Spec.SignsWith sig kp →
    Aqua.addRootTrust relay relayDb sig n o0 o1 origins kp.pub.toPeerId.toBase58 maxChainLen e db = (.ok (some err), db') →
    db' = db

theorem addRootTrust_aqua_eq {relay : Node} {relayDb : Db} {sig : SigService} {n : Node} {o0 o1 : List Tetraplet}
    {origins : List (List Tetraplet)} {m : UInt32} {pk : PublicKey} (hp : pk.NotRsa) {e : UInt64} {s : Bytes}
    (hs : sig (Trust.signatureBytes pk (.ofSecs e) (.ofSecs relay.now)) = some s) (db : Db) :
    Aqua.addRootTrust relay relayDb sig n o0 o1 origins pk.toPeerId.toBase58 m e db =
      (do
        let r ← Aqua.setRoot n origins pk.toPeerId.toBase58 m
        if r.success then
          Aqua.importTrust n o0 o1 (Dto.ofTrust (Spec.issuedTrust pk e relay.now s)) pk.toPeerId.toBase58
        else pure (r.error.map .service) : M Db Empty (Option AquaError)) db := by
  unfold Aqua.addRootTrust
  rw [issueTrust_eq relay sig pk hp e relayDb, hs, M.bind_run_ok (M.lift_run _ _)]
  dsimp only
  unfold Aqua.appendError
  rw [M.bind_run, M.bind_run]
  rcases Aqua.setRoot n origins pk.toPeerId.toBase58 m db with ⟨r | _ | _ | _, s'⟩
  · dsimp only
    by_cases h : r.success = true
    · rw [if_pos h, if_pos h, M.bind_run]
      rcases Aqua.importTrust n o0 o1 (Dto.ofTrust (Spec.issuedTrust pk e relay.now s)) pk.toPeerId.toBase58 s' with
        ⟨_ | _ | _ | _, _⟩ <;> rfl
    · rw [if_neg h, if_neg h]
  all_goals rfl

/-- **C80**, exact behaviour.  Who is not the creator of the service on the node gets an error and changes nothing.  The creator sets the root
(`set_root`); if that fails, its error is reported.  Then the self-signed trust, dated by the clock of the relay, is imported: refused if the
clock of the node is behind — the root stays set —, otherwise with the outcome of `add_trust` of the library. -/
theorem C80_add_root_trust (relay n : Node) (relayDb db : Db) (sig : SigService) (kp : KeyPair) (o0 o1 : List Tetraplet)
    (origins : List (List Tetraplet)) (m : UInt32) (e : UInt64) (hk : kp.pub.NotRsa) (hs : Spec.SignsWith sig kp) :
    ∃ t : Trust, t.issuedFor = kp.pub ∧ t.expiresAt = .ofSecs e ∧ t.issuedAt = .ofSecs relay.now ∧
      (∀ now : Dur, t.verify kp.pub now = .ok () ↔ now.total ≤ (Dur.ofSecs e).total) ∧
      (n.init ≠ n.creator →
        Aqua.addRootTrust relay relayDb sig n o0 o1 origins kp.pub.toPeerId.toBase58 m e db = (.ok (some (.service .notOwner)), db)) ∧
      (n.init = n.creator →
        (∀ er db1, TrustGraph.setRoot kp.pub m.toNat db = (.err er, db1) →
          Aqua.addRootTrust relay relayDb sig n o0 o1 origins kp.pub.toPeerId.toBase58 m e db
            = (.ok (some (.service (.tgError er))), db1)) ∧
        (∀ db1, TrustGraph.setRoot kp.pub m.toNat db = (.ok (), db1) →
          (n.now < relay.now →
            Aqua.addRootTrust relay relayDb sig n o0 o1 origins kp.pub.toPeerId.toBase58 m e db
              = (.ok (some (.service .invalidTimestamp)), db1)) ∧
          (relay.now ≤ n.now →
            Spec.Reports (TrustGraph.addTrust t kp.pub (.ofSecs n.now) db1)
              (Aqua.addRootTrust relay relayDb sig n o0 o1 origins kp.pub.toPeerId.toBase58 m e db)))) := by
  obtain ⟨s, h1, h2⟩ := issuedTrust_verify hs hk kp.pub e relay.now
  refine ⟨_, rfl, rfl, rfl, h2, fun hne => ?_, fun ho => ?_⟩
  · rw [addRootTrust_aqua_eq hk h1]
    have h : Aqua.setRoot n origins kp.pub.toPeerId.toBase58 m db = (.ok ⟨false, some .notOwner, ()⟩, db) := by
      unfold Aqua.setRoot Service.setRoot
      rw [if_neg (show ¬ (n.call origins).serviceCreatorPeerId = (n.call origins).initPeerId from fun h => hne h.symm)]
      rfl
    rw [M.bind_run_ok h]
    rfl
  · have hpass := (C75_updates (n.call origins) db).1 kp.pub m hk ho
    unfold Spec.PassesOn at hpass
    constructor
    · intro er db1 hset
      rw [hset] at hpass
      rw [addRootTrust_aqua_eq hk h1]
      have hpass : Aqua.setRoot n origins kp.pub.toPeerId.toBase58 m db = _ := hpass
      rw [M.bind_run_ok hpass]
      rfl
    · intro db1 hset
      rw [hset] at hpass
      rw [addRootTrust_aqua_eq hk h1]
      have hpass : Aqua.setRoot n origins kp.pub.toPeerId.toBase58 m db = _ := hpass
      rw [M.bind_run_ok hpass]
      dsimp only
      rw [if_pos rfl]
      exact ⟨fun h => importTrust_early n o0 o1 kp.pub kp.pub hk e relay.now s h db1,
        fun h => importTrust_reports n o0 o1 kp.pub kp.pub hk hk e relay.now s h db1⟩

omit [LawfulEnv] in
/-- A root is never without weight. -/
theorem weight_root_pos [Env] {db db' : Db} (hh : db.Healthy) {pk : PublicKey} {now : Dur} {w : Nat}
    (hroot : (db.rootFactor pk).isSome) (h : TrustGraph.weight pk now db = (.ok w, db')) : 0 < w := by
  have h := (TrustGraph.weight_transparent pk now).ok h
  obtain ⟨f, hf⟩ := Option.isSome_iff_exists.mp hroot
  have h1 : TrustGraph.storage (Storage.getRootWeightFactor pk) db.calm = (.ok (some f), db.calm) :=
    hf ▸ Search.storage_ok (Db.getRootWeightFactor_eq hh.calm (Db.calm_noFaults _) pk)
  unfold TrustGraph.weight at h
  rw [M.bind_run_ok h1, M.bind_run_ok (Db.getAllCerts_eq hh.calm (Db.calm_noFaults _) pk now), M.bind_run] at h
  have hp : 0 < getWeightFromFactor f := Nat.two_pow_pos _
  rcases hx : TrustGraph.certificatesWeightFactor (db.calm.certs pk now) (db.calm.collect now) with ⟨x | _ | _ | _, s⟩
  · rw [hx] at h
    cases x with
    | none => cases h; exact hp
    | some x => cases h; exact lt_of_lt_of_le hp (Nat.le_max_left _ _)
  all_goals rw [hx] at h; cases h

omit [LawfulEnv] in
/-- `set_root` fails with an error or sets the root. -/
theorem setRoot_cases [Env] (db : Db) (pk : PublicKey) (n : Nat) :
    (∃ e, (TrustGraph.setRoot pk n db).1 = .err e) ∨
      ((TrustGraph.setRoot pk n db).1 = .ok () ∧ ((TrustGraph.setRoot pk n db).2.rootFactor pk).isSome) := by
  have e : TrustGraph.setRoot pk n db.calm = (.ok (), db.calm.addRoot pk (getWeightFactor n)) := by
    unfold TrustGraph.setRoot
    apply Search.storage_ok
    show Sqlite.setRootWeightFactor pk (getWeightFactor n) db.calm = _
    unfold Sqlite.setRootWeightFactor
    rw [Db.stmt_noFaults (Db.calm_noFaults _)]
    rfl
  rcases TrustGraph.setRoot_transparent pk n db with ⟨er, h, -⟩ | ⟨h1, h2⟩
  · exact .inl ⟨er, h⟩
  · rw [e] at h1 h2
    refine .inr ⟨h1, ?_⟩
    have h3 : (TrustGraph.setRoot pk n db).2.roots = (db.calm.addRoot pk (getWeightFactor n)).roots :=
      by have := congrArg Db.roots h2; exact this
    rw [Db.rootFactor_congr h3, Db.rootFactor_isSome]
    exact ⟨⟨keyText pk, (getWeightFactor n : Nat)⟩, List.mem_append_right _ (List.mem_singleton.mpr rfl), rfl⟩

/-- **C80**: if no error is reported, the caller was the creator, the peer is a root of the node, and the node stores a relation of the peer with
itself dated by the clock of the relay or later. -/
theorem C80_no_error {relay n : Node} {relayDb db db' : Db} {sig : SigService} {kp : KeyPair} {o0 o1 : List Tetraplet}
    {origins : List (List Tetraplet)} {m : UInt32} {e : UInt64} (hr : Reachable db) (hk : kp.pub.NotRsa) (hs : Spec.SignsWith sig kp)
    (h : Aqua.addRootTrust relay relayDb sig n o0 o1 origins kp.pub.toPeerId.toBase58 m e db = (.ok none, db')) :
    n.init = n.creator ∧ (db'.rootFactor kp.pub).isSome ∧
    ∃ q, db'.Stored q ∧ q.issuedFor = kp.pub ∧ q.issuedBy = kp.pub ∧ (Dur.ofSecs relay.now).total ≤ q.issuedAt.total := by
  obtain ⟨t, h1, h2, h3, -, h4, h5⟩ := C80_add_root_trust relay n relayDb db sig kp o0 o1 origins m e hk hs
  by_cases ho : n.init = n.creator
  swap
  · rw [h4 ho] at h; cases h
  refine ⟨ho, ?_⟩
  obtain ⟨h5, h6⟩ := h5 ho
  rcases hset : TrustGraph.setRoot kp.pub m.toNat db with ⟨_ | er | _ | _, db1⟩
  · obtain ⟨h7, h8⟩ := h6 db1 hset
    rcases UInt64.lt_or_le n.now relay.now with hlt | hle
    · rw [h7 hlt] at h; cases h
    have h8 := h8 hle
    rw [h] at h8
    obtain ⟨w, hw⟩ := h8.none
    have hr1 : Reachable db1 := by
      have : Reachable (TrustGraph.setRoot kp.pub m.toNat db).2 := hr.step (.setRoot kp.pub m.toNat)
      rwa [hset] at this
    have hroot : (db1.rootFactor kp.pub).isSome := by
      rcases setRoot_cases db kp.pub m.toNat with ⟨er, h⟩ | ⟨-, h⟩
      · rw [hset] at h; cases h
      · rwa [hset] at h
    have hpos : w ≠ 0 := by
      obtain ⟨-, wi, s1, ha, hb, -⟩ := C20_returned_weight hw
      rw [if_pos h1.symm] at hb
      have := weight_root_pos hr1.healthy hroot ha
      omega
    obtain ⟨⟨q, hq, hqp, hqt⟩, -⟩ := C76_add_trust_takes_effect hr1 hw hpos
    refine ⟨?_, q, hq, hqp.1.trans h1, hqp.2, ?_⟩
    · have hroots : db'.roots = db1.roots := by
        have hc : Collecting (fun a b : Db => b.roots = a.roots) (.ofSecs n.now) :=
          ⟨⟨fun _ => rfl, fun _ _ _ h1 h2 => h2.trans h1, fun _ _ => rfl⟩, fun _ => rfl⟩
        have := TrustGraph.addTrust_steps hc t kp.pub (fun _ _ _ => rfl) db1
        rwa [hw] at this
      rw [Db.rootFactor_congr hroots]
      exact hroot
    · rcases hqt with rfl | hqt
      · rw [TrustRelation.trunc_issuedAt]
        show _ ≤ t.issuedAt.trunc.total
        rw [h3]; exact Nat.le_refl _
      · rw [← h3]; exact hqt
  · rw [h5 er db1 hset] at h; cases h
  all_goals
    rcases setRoot_cases db kp.pub m.toNat with ⟨er, h⟩ | ⟨h, -⟩ <;> rw [hset] at h <;> cases h

/-! ### C81: revoke -/

/-- What the caller of `revoke` counts on: if no error is reported, the node no longer stores a trust of the revoker in this key issued up to
the time of the relay. -/
def C81_statement : Prop :=
  ∀ (relay n : Node) (relayDb db db' : Db) (sig : SigService) (kp : KeyPair) (pk : PublicKey) (o0 : List Tetraplet),
    Reachable db → kp.pub.NotRsa → pk.NotRsa → Spec.SignsWith sig kp →
    Aqua.revoke relay relayDb sig n o0 kp.pub.toPeerId.toBase58 pk.toPeerId.toBase58 db = (.ok none, db') →
    ∀ t, db'.Stored (.auth ⟨t, kp.pub⟩) → t.issuedFor = pk → ¬ t.issuedAt.total ≤ (Dur.ofSecs relay.now).total

/-- The revocation made by the Aqua functions. -/
def Spec.issuedRevocation (by' pk : PublicKey) (at' : UInt64) (signature : Bytes) : Revocation :=
  ⟨pk, .ofSecs at', by', Signature.fromBytes by'.keyFormat signature⟩

theorem issueRevocation_eq (relay : Node) (sig : SigService) (by' pk : PublicKey) (hb : by'.NotRsa) (hp : pk.NotRsa) (db : Db) :
    Aqua.issueRevocation relay sig by'.toPeerId.toBase58 pk.toPeerId.toBase58 db =
      (match sig (Revocation.signatureBytes pk (.ofSecs relay.now)) with
        | some s => .ok (some (Dto.ofRevocation (Spec.issuedRevocation by' pk relay.now s)), none)
        | none => .ok (none, some .sig), db) := by
  have h0 : Service.getRevocationBytes (relay.call []) pk.toPeerId.toBase58 relay.now db
      = (.ok ⟨true, none, Revocation.signatureBytes pk (.ofSecs relay.now)⟩, db) := by
    unfold Service.getRevocationBytes
    rw [into_lift_ok (extractPublicKey_toPeerId pk hp)]
    rfl
  unfold Aqua.issueRevocation
  rw [M.bind_run_ok h0]
  dsimp only
  rw [if_pos rfl]
  rcases sig (Revocation.signatureBytes pk (.ofSecs relay.now)) with _ | s
  · rfl
  · have h : Service.issueRevocation (relay.call []) by'.toPeerId.toBase58 pk.toPeerId.toBase58 relay.now s db
        = (.ok ⟨true, none, Dto.ofRevocation (Spec.issuedRevocation by' pk relay.now s)⟩, db) := by
      unfold Service.issueRevocation
      rw [into_lift_ok (extractPublicKey_toPeerId pk hp), into_lift_ok (extractPublicKey_toPeerId _ hb)]
      rfl
    dsimp only
    rw [M.bind_run_ok h]
    rfl

theorem revoke_aqua_eq {relay : Node} {relayDb : Db} {sig : SigService} {n : Node} {o0 : List Tetraplet} {by' pk : PublicKey}
    (hb : by'.NotRsa) (hp : pk.NotRsa) {s : Bytes} (hs : sig (Revocation.signatureBytes pk (.ofSecs relay.now)) = some s) (db : Db) :
    Aqua.revoke relay relayDb sig n o0 by'.toPeerId.toBase58 pk.toPeerId.toBase58 db
      = Aqua.importRevocation n o0 (Dto.ofRevocation (Spec.issuedRevocation by' pk relay.now s)) db := by
  unfold Aqua.revoke
  rw [issueRevocation_eq relay sig by' pk hb hp relayDb, hs]
  rw [M.bind_run_ok (M.lift_run _ _)]
  dsimp only
  unfold Aqua.appendError
  rw [M.bind_run]
  rcases Aqua.importRevocation n o0 (Dto.ofRevocation (Spec.issuedRevocation by' pk relay.now s)) db with ⟨_ | _ | _ | _, _⟩ <;> rfl

/-- **C81**, exact behaviour: with a signature service that signs with the key of the revoker, `revoke` makes a valid revocation dated by the clock
of the relay.  If the clock of the node is behind, the import is refused without effect; otherwise the outcome is that of `revoke` of the
library. -/
theorem C81_revoke (relay n : Node) (relayDb db : Db) (sig : SigService) (kp : KeyPair) (pk : PublicKey) (o0 : List Tetraplet)
    (hk : kp.pub.NotRsa) (hp : pk.NotRsa) (hs : Spec.SignsWith sig kp) :
    ∃ r : Revocation, r.pk = pk ∧ r.revokedBy = kp.pub ∧ r.revokedAt = .ofSecs relay.now ∧ r.verify = .ok () ∧
      (n.now < relay.now →
        Aqua.revoke relay relayDb sig n o0 kp.pub.toPeerId.toBase58 pk.toPeerId.toBase58 db
          = (.ok (some (.service .invalidTimestamp)), db)) ∧
      (relay.now ≤ n.now →
        Spec.Reports (TrustGraph.revoke r db) (Aqua.revoke relay relayDb sig n o0 kp.pub.toPeerId.toBase58 pk.toPeerId.toBase58 db)) := by
  obtain ⟨sg, hsg⟩ := kp.sign_ok _ (kp.canSign_of_notRsa hk (Revocation.signatureBytes pk (.ofSecs relay.now)))
  refine ⟨Spec.issuedRevocation kp.pub pk relay.now sg.raw, rfl, rfl, rfl, ?_, fun h => ?_, fun h => ?_⟩
  · unfold Revocation.verify
    rw [Outcome.mapErr_eq_ok]
    show kp.pub.verify _ (Signature.fromBytes kp.pub.keyFormat sg.raw) = .ok ()
    rw [C43_relabel]
    exact C41_genuine_accepted _ _ _ (C42_sign_genuine _ _ _ hsg)
  · rw [revoke_aqua_eq hk hp (hs _ _ hsg)]
    have he : Service.revoke (n.call [o0, n.clock]) (Dto.ofRevocation (Spec.issuedRevocation kp.pub pk relay.now sg.raw)) n.now db
        = (.ok ⟨false, some .invalidTimestamp, ()⟩, db) := by
      unfold Service.revoke
      rw [into_lift_ok ((checkTimestamp_iff _ 1).mpr ⟨[], rfl⟩),
        if_pos (show (Dto.ofRevocation (Spec.issuedRevocation kp.pub pk relay.now sg.raw)).revokedAt.toNat > n.now.toNat from
          UInt64.lt_iff_toNat_lt.mp h)]
      rfl
    unfold Aqua.importRevocation
    rw [M.bind_run_ok he]
    rfl
  · rw [revoke_aqua_eq hk hp (hs _ _ hsg)]
    exact reports_of_passesOn ((C75_updates (n.call [o0, n.clock]) db).2.2.1 (Spec.issuedRevocation kp.pub pk relay.now sg.raw) n.now
      hp hk rfl ⟨[], rfl⟩ h)

/-- **C81**, what holds of the expectation: if no error is reported, any trust of the revoker in this key still stored is dated by the clock of the relay
or later.  The case of equal dates: `C81_revoke_fails`. -/
theorem C81_no_error_partial {relay n : Node} {relayDb db db' : Db} {sig : SigService} {kp : KeyPair} {pk : PublicKey}
    {o0 : List Tetraplet} (hr : Reachable db) (hk : kp.pub.NotRsa) (hp : pk.NotRsa) (hs : Spec.SignsWith sig kp)
    (h : Aqua.revoke relay relayDb sig n o0 kp.pub.toPeerId.toBase58 pk.toPeerId.toBase58 db = (.ok none, db')) :
    ∀ t, db'.Stored (.auth ⟨t, kp.pub⟩) → t.issuedFor = pk → (Dur.ofSecs relay.now).total ≤ t.issuedAt.total := by
  obtain ⟨r, h1, h2, h3, -, h4, h5⟩ := C81_revoke relay n relayDb db sig kp pk o0 hk hp hs
  rcases UInt64.lt_or_le n.now relay.now with hlt | hle
  · rw [h4 hlt] at h; cases h
  have h5 := h5 hle
  rw [h] at h5
  obtain ⟨_, hw⟩ := h5.none
  intro t ht hpk
  rw [← h3]
  exact (C76_revoke_takes_effect_partial hr hw).2 t (h2.symm ▸ ht) (hpk.trans h1.symm)

end TG
