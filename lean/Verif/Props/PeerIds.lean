/-
Peer ids and DTOs: C60, C63.
-/
import Verif.Props.Keys
import Verif.Model.Dto
import Verif.Spec.Db

namespace TG

section
variable [LawfulEnv]

omit [LawfulEnv] in
/-- The protobuf form of a short key, and its size. -/
theorem pbEncode_short (t : Nat) (data : Bytes) (h : data.length < 128) :
    pbEncode t data = [0x08, UInt8.ofNat t, 0x12, UInt8.ofNat data.length] ++ data := by
  unfold pbEncode
  have : varint data.length data.length = [UInt8.ofNat data.length] := by
    cases hl : data.length with
    | zero => rfl
    | succ n => rw [varint, if_pos (by omega)]
  rw [this]; rfl

omit [LawfulEnv] in
theorem PeerId.fromStr_toBase58 (d : Bytes) (h : d.length ≤ 42) :
    PeerId.fromStr (PeerId.toBase58 ⟨true, d⟩) = some ⟨true, d⟩ := by
  have e : (UInt8.ofNat d.length).toNat = d.length := by rw [UInt8.toNat_ofNat']; omega
  unfold PeerId.fromStr PeerId.toBase58
  rw [Base58.decode_encode]
  show PeerId.fromBytes (0x00 :: UInt8.ofNat d.length :: d) = _
  unfold PeerId.fromBytes
  dsimp only
  rw [e, if_pos ⟨rfl, by omega⟩, if_neg (by decide), if_pos ⟨rfl, h⟩]

/-- A key that is not RSA is contained in its peer id. -/
theorem toPeerId_inlined (pk : PublicKey) (h : pk.NotRsa) :
    ∃ t data, pk.toLibp2p = (t, data) ∧ t ≤ 2 ∧ data.length < 34 ∧ pk.toPeerId = ⟨true, pbEncode t data⟩ ∧
      (pbEncode t data).length ≤ 42 := by
  cases pk with
  | ed25519 b l v =>
    have hl : (pbEncode 1 b).length ≤ 42 := by rw [pbEncode_short 1 b (by omega)]; simp [l]
    refine ⟨1, b, rfl, by omega, by omega, ?_, hl⟩
    exact if_pos hl
  | rsa b n => exact h.elim
  | secp256k1 b l v =>
    have hl : (pbEncode 2 b).length ≤ 42 := by rw [pbEncode_short 2 b (by omega)]; simp [l]
    refine ⟨2, b, rfl, by omega, by omega, ?_, hl⟩
    exact if_pos hl

theorem ofProtobuf_pbEncode (pk : PublicKey) (h : pk.NotRsa) :
    PublicKey.ofProtobuf (pbEncode pk.toLibp2p.1 pk.toLibp2p.2) = some pk := by
  cases pk with
  | ed25519 b l v =>
    show PublicKey.ofProtobuf (pbEncode 1 b) = _
    unfold PublicKey.ofProtobuf
    rw [pbEncode_short 1 b (by omega), LawfulEnv.pb_roundtrip 1 b (by omega) (by omega)]
    dsimp only
    rw [if_pos rfl]
    unfold Ed25519.decode
    rw [dif_pos l, dif_pos v]; rfl
  | rsa b n => exact h.elim
  | secp256k1 b l v =>
    show PublicKey.ofProtobuf (pbEncode 2 b) = _
    unfold PublicKey.ofProtobuf
    rw [pbEncode_short 2 b (by omega), LawfulEnv.pb_roundtrip 2 b (by omega) (by omega)]
    dsimp only
    rw [if_neg (by decide), if_pos rfl]
    unfold Secp256k1.decode
    rw [dif_pos l, dif_pos v]; rfl

/-- **C63**: the textual peer id of an Ed25519 or Secp256k1 key converts back to the key. -/
theorem C63_peer_id_roundtrip (pk : PublicKey) (h : pk.NotRsa) :
    ∃ p, PeerId.fromStr pk.toPeerId.toBase58 = some p ∧ p = pk.toPeerId ∧ PublicKey.ofPeerId p = .ok pk := by
  obtain ⟨t, data, hlp, -, -, hp, hl⟩ := toPeerId_inlined pk h
  refine ⟨pk.toPeerId, by rw [hp]; exact PeerId.fromStr_toBase58 _ hl, rfl, ?_⟩
  rw [hp]
  unfold PublicKey.ofPeerId
  have := ofProtobuf_pbEncode pk h
  rw [hlp] at this
  rw [if_pos rfl, this]; rfl

/-- **C63**: different keys have different peer ids. -/
theorem C63_peer_ids_differ (pk pk' : PublicKey) (h : pk.NotRsa) (h' : pk'.NotRsa)
    (he : pk.toPeerId.toBase58 = pk'.toPeerId.toBase58) : pk = pk' := by
  obtain ⟨p, hp, -, hk⟩ := C63_peer_id_roundtrip pk h
  obtain ⟨p', hp', -, hk'⟩ := C63_peer_id_roundtrip pk' h'
  rw [he, hp'] at hp
  cases hp
  rw [hk] at hk'
  exact Outcome.ok.inj hk'

/-! ### C60 -/

theorem Dto.keyOfPeerId_toPeerId (pk : PublicKey) (h : pk.NotRsa) : Dto.keyOfPeerId pk.toPeerId.toBase58 = .ok pk := by
  obtain ⟨p, hp, -, hk⟩ := C63_peer_id_roundtrip pk h
  unfold Dto.keyOfPeerId
  rw [hp]
  dsimp only
  rw [hk]; rfl

omit [LawfulEnv] in
theorem Dto.readSignature_write [Env] (s : Signature) : Dto.readSignature (Base58.encode s.raw) s.sigType.toStr = .ok s := by
  unfold Dto.readSignature
  rw [Base58.decode_encode, KeyFormat.fromStr_toStr]
  simp [Signature.fromBytes_raw]

/-- **C60** for trusts. -/
theorem C60_trust_roundtrip (t : Trust) (h : t.issuedFor.NotRsa) (hw : t.WholeSeconds) :
    Dto.toTrust (Dto.ofTrust t) = .ok t := by
  unfold Dto.toTrust Dto.ofTrust
  dsimp only
  rw [Dto.keyOfPeerId_toPeerId _ h, Dto.readSignature_write]
  simp only [Outcome.ok_bind, hw.1.eq, hw.2.eq]

/-- **C60** for revocations. -/
theorem C60_revocation_roundtrip (r : Revocation) (h : r.pk.NotRsa) (h' : r.revokedBy.NotRsa) (hw : r.revokedAt.Whole) :
    Dto.toRevocation (Dto.ofRevocation r) = .ok r := by
  unfold Dto.toRevocation Dto.ofRevocation
  dsimp only
  rw [Dto.keyOfPeerId_toPeerId _ h, Dto.keyOfPeerId_toPeerId _ h', Dto.readSignature_write]
  simp only [Outcome.ok_bind, hw.eq]

/-- **C60** for certificates. -/
theorem C60_certificate_roundtrip (c : Certificate) (h : ∀ t ∈ c.chain, t.issuedFor.NotRsa ∧ t.WholeSeconds) :
    Dto.toCertificate (Dto.ofCertificate c) = .ok c := by
  have key : ∀ ts : List Trust, (∀ t ∈ ts, t.issuedFor.NotRsa ∧ t.WholeSeconds) →
      Dto.collect Dto.toTrust (ts.map Dto.ofTrust) = .ok ts := by
    intro ts hts
    induction ts with
    | nil => rfl
    | cons t ts ih =>
      rw [List.map_cons, Dto.collect, C60_trust_roundtrip t (hts t (by simp)).1 (hts t (by simp)).2,
        ih fun x hx => hts x (by simp [hx])]
      rfl
  unfold Dto.toCertificate Dto.ofCertificate
  dsimp only
  rw [key c.chain h]; rfl

omit [LawfulEnv] in
/-- On the service's target there are no RSA keys: the hypotheses about key types are always met there. -/
theorem C60_wasm_keys [Env] (hw : Env.wasm = true) (pk : PublicKey) : pk.NotRsa := by
  cases pk with
  | ed25519 => trivial
  | rsa b n => rw [hw] at n; cases n
  | secp256k1 => trivial

end

/-! ### Examples -/

open TG.Toy

/-- C60, C63: both key types, in the service's environment. -/
example : (pk 1).NotRsa ∧ (skp 1).pub.NotRsa ∧ (trust 1 2 50 10).WholeSeconds ∧ (Env.wasm = true) :=
  ⟨trivial, trivial, ⟨rfl, rfl⟩, rfl⟩

/-- C60: a trust through its DTO. -/
example : Dto.toTrust (Dto.ofTrust (trust 1 2 50 10)) = .ok (trust 1 2 50 10) :=
  C60_trust_roundtrip _ trivial ⟨rfl, rfl⟩

end TG
