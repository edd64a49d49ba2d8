/-
Properties C61 and C65: issuing through the service, and the labels of Fluence peers.

`LawfulEnv`: the signature schemes accept what they sign, and protobuf messages are read back.
-/
import Verif.Props.Service
import Verif.Model.Aqua

namespace TG
open TG.Service
variable [LawfulEnv]

/-! ### C61: issuing through the service -/

theorem extractPublicKey_toPeerId (pk : PublicKey) (h : pk.NotRsa) : extractPublicKey pk.toPeerId.toBase58 = .ok pk := by
  obtain ⟨p, hp, -, hk⟩ := C63_peer_id_roundtrip pk h
  unfold extractPublicKey
  rw [hp]
  dsimp only
  rw [hk]; rfl

theorem KeyPair.canSign_of_notRsa (kp : KeyPair) (h : kp.pub.NotRsa) (msg : Bytes) : kp.CanSign msg := by
  cases kp with
  | rsa => exact h.elim
  | _ => trivial

/-- **C61** for trusts: bytes from `get_trust_bytes`, signed with the issuer's key and passed to `issue_trust`, give a trust that
`verify_trust` accepts for this issuer exactly until it expires, and that `add_trust` accepts while it is valid.  Issuer and recipient have
any key types that peer ids can carry. -/
theorem C61_trust_flow (kp : KeyPair) (pk : PublicKey) (hk : kp.pub.NotRsa) (hp : pk.NotRsa) (e i : UInt64)
    (cp1 cp2 cp3 : CallParams) (hc : cp3.FromHostClock 2) (db : Db) :
    ∃ bytes sig dto,
      Service.getTrustBytes cp1 pk.toPeerId.toBase58 e i db = (.ok ⟨true, none, bytes⟩, db) ∧
      kp.sign bytes = .ok sig ∧
      Service.issueTrust cp2 pk.toPeerId.toBase58 e i sig.raw db = (.ok ⟨true, none, dto⟩, db) ∧
      (∀ now, (Call.verifyTrust dto kp.pub.toPeerId.toBase58 now).Succeeds cp3 db ↔ now ≤ e) ∧
      (∀ now, Reachable db → db.NoFaults → db.Bounded 0 → i ≤ now → now ≤ e →
        (Call.addTrust dto kp.pub.toPeerId.toBase58 now).Succeeds cp3 db) := by
  obtain ⟨sig, hs⟩ := kp.sign_ok _ (kp.canSign_of_notRsa hk (Trust.signatureBytes pk (.ofSecs e) (.ofSecs i)))
  have hv : ∀ now : UInt64, (Trust.mk pk (.ofSecs e) (Signature.fromBytes pk.keyFormat sig.raw) (.ofSecs i)).verify kp.pub
      (.ofSecs now) = .ok () ↔ now ≤ e := by
    intro now
    rw [C38_verify_decides]
    have h1 : kp.pub.verify (Trust.signatureBytes pk (.ofSecs e) (.ofSecs i)) (Signature.fromBytes pk.keyFormat sig.raw) = .ok () := by
      rw [C43_relabel]
      exact C41_genuine_accepted _ _ _ (C42_sign_genuine _ _ _ hs)
    have h2 : (Dur.ofSecs now).total ≤ (Dur.ofSecs e).total ↔ now ≤ e := by
      rw [UInt64.le_iff_toNat_le]
      simp only [Dur.total, Dur.ofSecs]
      omega
    exact ⟨fun h => h2.mp h.1, fun h => ⟨h2.mpr h, h1⟩⟩
  have hd : Dto.toTrust (Dto.ofTrust (Trust.new pk (.ofSecs e) (.ofSecs i) (Signature.fromBytes pk.keyFormat sig.raw)))
      = .ok ⟨pk, .ofSecs e, Signature.fromBytes pk.keyFormat sig.raw, .ofSecs i⟩ := C60_trust_roundtrip _ hp ⟨rfl, rfl⟩
  refine ⟨_, sig, Dto.ofTrust (Trust.new pk (.ofSecs e) (.ofSecs i) (Signature.fromBytes pk.keyFormat sig.raw)), ?_, hs, ?_, ?_, ?_⟩
  · unfold Service.getTrustBytes into
    rw [extractPublicKey_toPeerId pk hp]
    rfl
  · unfold Service.issueTrust into
    rw [extractPublicKey_toPeerId pk hp]
    rfl
  · intro now
    rw [← hv now]
    show (status (Service.verifyTrust cp3 _ _ now) db).1 = _ ↔ _
    unfold Service.verifyTrust
    rw [status_into, (checkTimestamp_iff cp3 2).mpr hc, lift_bind_run]
    dsimp only
    rw [extractPublicKey_toPeerId _ hk, lift_bind_run]
    dsimp only
    rw [hd, Outcome.mapErr_ok, lift_bind_run]
    dsimp only
    cases (Trust.mk pk (.ofSecs e) (Signature.fromBytes pk.keyFormat sig.raw) (.ofSecs i)).verify kp.pub (.ofSecs now) <;>
      simp [Outcome.mapErr, M.lift_run]
  · intro now hr hf hb h1 h2
    show (status (Service.addTrust cp3 _ _ now) db).1 = _
    obtain ⟨w, hw⟩ := Db.weight_returns hr.healthy hf hb kp.pub (.ofSecs now)
    unfold Service.addTrust
    rw [status_into, extractPublicKey_toPeerId _ hk, lift_bind_run]
    dsimp only
    rw [(checkTimestamp_iff cp3 2).mpr hc, lift_bind_run]
    dsimp only
    rw [if_neg (show ¬ (Dto.ofTrust (Trust.new pk (.ofSecs e) (.ofSecs i)
      (Signature.fromBytes pk.keyFormat sig.raw))).issuedAt.toNat > now.toNat from Nat.not_lt.mpr (UInt64.le_iff_toNat_le.mp h1)), hd, Outcome.mapErr_ok, lift_bind_run]
    dsimp only
    unfold tg M.mapErr
    rw [Db.addTrust_eq hr.healthy hf ((hv now).mpr h2) hw]
    rfl

/-- **C61** for revocations. -/
theorem C61_revocation_flow (kp : KeyPair) (pk : PublicKey) (hk : kp.pub.NotRsa) (hp : pk.NotRsa) (at' : UInt64)
    (cp1 cp2 cp3 : CallParams) (hc : cp3.FromHostClock 1) (db : Db) :
    ∃ bytes sig dto,
      Service.getRevocationBytes cp1 pk.toPeerId.toBase58 at' db = (.ok ⟨true, none, bytes⟩, db) ∧
      kp.sign bytes = .ok sig ∧
      Service.issueRevocation cp2 kp.pub.toPeerId.toBase58 pk.toPeerId.toBase58 at' sig.raw db = (.ok ⟨true, none, dto⟩, db) ∧
      ∀ now, Reachable db → db.NoFaults → at' ≤ now → (Call.revoke dto now).Succeeds cp3 db := by
  obtain ⟨sig, hs⟩ := kp.sign_ok _ (kp.canSign_of_notRsa hk (Revocation.signatureBytes pk (.ofSecs at')))
  have hd : Dto.toRevocation (Dto.ofRevocation (Revocation.new kp.pub pk (.ofSecs at') (Signature.fromBytes kp.pub.keyFormat sig.raw)))
      = .ok ⟨pk, .ofSecs at', kp.pub, Signature.fromBytes kp.pub.keyFormat sig.raw⟩ := C60_revocation_roundtrip _ hp hk rfl
  have hv : (Revocation.mk pk (.ofSecs at') kp.pub (Signature.fromBytes kp.pub.keyFormat sig.raw)).verify = .ok () := by
    unfold Revocation.verify
    rw [Outcome.mapErr_eq_ok]
    dsimp only
    rw [C43_relabel]
    exact C41_genuine_accepted _ _ _ (C42_sign_genuine _ _ _ hs)
  refine ⟨_, sig, Dto.ofRevocation (Revocation.new kp.pub pk (.ofSecs at') (Signature.fromBytes kp.pub.keyFormat sig.raw)), ?_, hs, ?_, ?_⟩
  · unfold Service.getRevocationBytes into
    rw [extractPublicKey_toPeerId pk hp]
    rfl
  · unfold Service.issueRevocation into
    rw [extractPublicKey_toPeerId pk hp, extractPublicKey_toPeerId _ hk]
    rfl
  · intro now hr hf h1
    show (status (Service.revoke cp3 _ now) db).1 = _
    unfold Service.revoke
    rw [status_into, (checkTimestamp_iff cp3 1).mpr hc, lift_bind_run]
    dsimp only
    rw [if_neg (show ¬ (Dto.ofRevocation (Revocation.new kp.pub pk (.ofSecs at')
      (Signature.fromBytes kp.pub.keyFormat sig.raw))).revokedAt.toNat > now.toNat from
        Nat.not_lt.mpr (UInt64.le_iff_toNat_le.mp h1)), hd, Outcome.mapErr_ok, lift_bind_run]
    dsimp only
    unfold tg M.mapErr
    rw [Db.revoke_eq hr.healthy hf hv]
    rfl

/-! ### C65: labels -/

/-- A certificate of exactly three trusts: for the Fluence root, for the label key, for the host. -/
def Spec.Labelled (g : Spec.Snapshot) (root label host : PublicKey) : Prop :=
  ∃ t0 t1 t2 : Trust, Spec.Admissible g host ⟨[t0, t1, t2]⟩ ∧ t0.issuedFor = root ∧ t1.issuedFor = label

theorem Aqua.isLabelled_iff (hw : Env.wasm = true) {root label : PublicKey}
    (hr : root.toPeerId.toBase58 = Aqua.fluenceRootPeerId) (hl : label.toPeerId.toBase58 = Aqua.labelPeerId) (c : Certificate) :
    Aqua.isLabelled (Dto.ofCertificate c) = true ↔
      ∃ t0 t1 t2, c.chain = [t0, t1, t2] ∧ t0.issuedFor = root ∧ t1.issuedFor = label := by
  have key : ∀ pk pk' : PublicKey, pk.toPeerId.toBase58 = pk'.toPeerId.toBase58 ↔ pk = pk' := fun pk pk' =>
    ⟨C63_peer_ids_differ pk pk' (C60_wasm_keys hw _) (C60_wasm_keys hw _), fun e => by rw [e]⟩
  unfold Aqua.isLabelled Dto.ofCertificate
  rw [← hr, ← hl]
  dsimp only
  rcases c.chain with _ | ⟨a, _ | ⟨b, _ | ⟨d, _ | ⟨x, rest⟩⟩⟩⟩
  · simp
  · simp
  · simp
  · simp only [List.map_cons, List.map_nil, Bool.and_eq_true, beq_iff_eq]
    rw [show (Dto.ofTrust a).issuedFor = a.issuedFor.toPeerId.toBase58 from rfl,
      show (Dto.ofTrust b).issuedFor = b.issuedFor.toPeerId.toBase58 from rfl, key, key]
    constructor
    · intro h; exact ⟨a, b, d, rfl, h⟩
    · rintro ⟨t0, t1, t2, h, h'⟩; cases h; exact h'
  · simp

/-- **C65**: on the service's target, `isFluencePeer` returns no error and `true` if the host has a certificate of exactly three trusts,
for the Fluence root, the label key and the host, and `false` otherwise; or the storage failed and it returns the error and no
answer. -/
theorem C65_is_fluence_peer (hw : Env.wasm = true) {root label host : PublicKey}
    (hr : root.toPeerId.toBase58 = Aqua.fluenceRootPeerId) (hl : label.toPeerId.toBase58 = Aqua.labelPeerId)
    {db : Db} (hdb : Reachable db) (init creator : Str) (now : UInt64) :
    ((Aqua.isFluencePeer host.toPeerId.toBase58 init creator now db).1 = .ok (none, some (.tgError .internalStorageError))) ∨
    ∃ b, (Aqua.isFluencePeer host.toPeerId.toBase58 init creator now db).1 = .ok (some b, none) ∧
      (b = true ↔ Spec.Labelled (db.snapshot (.ofSecs now)) root label host) := by
  have hclock : checkTimestampTetraplets (Aqua.hostCall host.toPeerId.toBase58 init creator) 1 = .ok () :=
    (checkTimestamp_iff _ _).mpr ⟨[], rfl⟩
  have hhost : extractPublicKey (Aqua.hostCall host.toPeerId.toBase58 init creator).hostId = .ok host :=
    extractPublicKey_toPeerId _ (C60_wasm_keys hw _)
  have hlab : extractPublicKey Aqua.labelPeerId = .ok label := by
    rw [← hl]; exact extractPublicKey_toPeerId _ (C60_wasm_keys hw _)
  have hrun : Service.getHostCertsFrom (Aqua.hostCall host.toPeerId.toBase58 init creator) Aqua.labelPeerId now db =
      into [] (tg (TrustGraph.getAllCertsFrom host label (.ofSecs now)) >>= fun certs => pure (certs.map Dto.ofCertificate)) db := by
    unfold Service.getHostCertsFrom getCertsFrom
    rw [hclock, hhost, hlab]
    rfl
  unfold Aqua.isFluencePeer
  rw [M.bind_run, hrun]
  unfold into
  rw [M.bind_run]
  unfold tg M.mapErr
  rcases h : TrustGraph.getAllCertsFrom host label (.ofSecs now) db with ⟨o, db'⟩
  rcases (C04_search_returns hdb.healthy host label (.ofSecs now)).2 with ⟨cs, ho⟩ | ho
  · right
    rw [h] at ho
    change o = _ at ho
    subst ho
    obtain ⟨all, db'', hall, hcs⟩ := C09_from_selects_partial hdb.healthy h
    obtain ⟨-, hadm⟩ := C02_complete_exactly_once hdb.healthy.calm hall
    have hmem : (∃ c ∈ cs.map Dto.ofCertificate, Aqua.isLabelled c = true) ↔
        Spec.Labelled (db.snapshot (.ofSecs now)) root label host := by
      constructor
      · rintro ⟨_, hcd, hlb⟩
        obtain ⟨c, hc, rfl⟩ := List.mem_map.mp hcd
        obtain ⟨t0, t1, t2, e, h0, h1⟩ := (Aqua.isLabelled_iff hw hr hl c).mp hlb
        rw [hcs] at hc
        have := (hadm c).mp (List.mem_of_mem_filter hc)
        refine ⟨t0, t1, t2, ?_, h0, h1⟩
        rw [← e]
        exact this
      · rintro ⟨t0, t1, t2, ha, h0, h1⟩
        refine ⟨_, List.mem_map.mpr ⟨⟨[t0, t1, t2]⟩, ?_, rfl⟩, (Aqua.isLabelled_iff hw hr hl _).mpr ⟨t0, t1, t2, rfl, h0, h1⟩⟩
        rw [hcs, List.mem_filter]
        exact ⟨(hadm _).mpr ha, by simp [h1]⟩
    simp only [Outcome.mapErr, M.pure_run, Res.ofOutcome, if_true]
    rw [← hmem]
    generalize cs.map Dto.ofCertificate = l
    rcases hfl : l.filter Aqua.isLabelled with _ | ⟨c, rest⟩
    · refine ⟨false, rfl, ?_⟩
      simp only [Bool.false_eq_true, false_iff, not_exists, not_and]
      exact fun c hc hlb => List.not_mem_nil (hfl ▸ List.mem_filter.mpr ⟨hc, hlb⟩)
    · refine ⟨true, rfl, ?_⟩
      simp only [true_iff]
      obtain ⟨h1, h2⟩ := List.mem_filter.mp (hfl.symm ▸ List.mem_cons_self : c ∈ l.filter Aqua.isLabelled)
      exact ⟨c, h1, h2⟩
  · left
    rw [h] at ho
    change o = _ at ho
    subst ho
    rfl

end TG
