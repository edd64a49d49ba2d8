/-
Serialised peer ids: C98.
-/
import Verif.Model.PeerIdSerde
import Verif.Props.PeerIds

namespace TG
variable [Env]

/-- Peer ids that exist: made from a key, or read from a text. -/
def Spec.PeerIdExists (p : PeerId) : Prop := (∃ pk : PublicKey, p = pk.toPeerId) ∨ ∃ s, PeerId.fromStr s = some p

omit [Env] in
theorem PeerId.fromBytes_toBytes {p : PeerId} (h : p.digest.length ≤ 64) (h' : p.inlined = true → p.digest.length ≤ 42) :
    PeerId.fromBytes p.toBytes = some p := by
  obtain ⟨i, d⟩ := p
  dsimp only at h h'
  have e : (UInt8.ofNat d.length).toNat = d.length := by rw [UInt8.toNat_ofNat']; omega
  cases i with
  | true =>
    show PeerId.fromBytes (0x00 :: UInt8.ofNat d.length :: d) = _
    unfold PeerId.fromBytes
    dsimp only
    rw [e, if_pos ⟨rfl, by omega⟩, if_neg (by decide), if_pos ⟨rfl, h' rfl⟩]
  | false =>
    show PeerId.fromBytes (0x12 :: UInt8.ofNat d.length :: d) = _
    unfold PeerId.fromBytes
    dsimp only
    rw [e, if_pos ⟨rfl, by omega⟩, if_pos rfl]

omit [Env] in
theorem PeerId.fromBytes_some {bs : Bytes} {p : PeerId} (h : PeerId.fromBytes bs = some p) :
    bs = p.toBytes ∧ p.digest.length ≤ 64 ∧ (p.inlined = true → p.digest.length ≤ 42) := by
  rcases bs with _ | ⟨c, _ | ⟨n, d⟩⟩
  · cases h
  · cases h
  · unfold PeerId.fromBytes at h
    dsimp only at h
    split at h
    · rename_i hl
      have e : UInt8.ofNat d.length = n := by rw [hl.1]; exact UInt8.ofNat_toNat
      split at h
      · rename_i hc
        cases h
        subst hc
        exact ⟨by show _ = 0x12 :: UInt8.ofNat d.length :: d; rw [e], by show d.length ≤ 64; omega, fun h => nomatch h⟩
      · split at h
        · rename_i hc
          cases h
          obtain ⟨rfl, hc⟩ := hc
          exact ⟨by show _ = 0x00 :: UInt8.ofNat d.length :: d; rw [e], by show d.length ≤ 64; omega, fun _ => hc⟩
        · cases h
    · cases h

/-- **C98**: a serialised peer id is read back as the same peer id. -/
theorem C98_roundtrip (p : PeerId) (h : Spec.PeerIdExists p) : PeerId.deserialize p.serialize = some p := by
  have hv : p.digest.length ≤ 64 ∧ (p.inlined = true → p.digest.length ≤ 42) := by
    rcases h with ⟨pk, rfl⟩ | ⟨s, hs⟩
    · unfold PublicKey.toPeerId
      dsimp only
      split
      · rename_i hl
        exact ⟨Nat.le_trans hl (by decide), fun _ => hl⟩
      · exact ⟨by show (Env.sha256 _).length ≤ 64; rw [Env.sha256_length]; decide, fun h => nomatch h⟩
    · unfold PeerId.fromStr at hs
      split at hs
      · cases hs
      · exact (PeerId.fromBytes_some hs).2
  unfold PeerId.deserialize PeerId.serialize PeerId.fromStr PeerId.toBase58
  rw [Base58.decode_encode]
  exact PeerId.fromBytes_toBytes hv.1 hv.2

omit [Env] in
/-- **C98**: every peer id has one text only. -/
theorem C98_canonical {s : Str} {p : PeerId} (h : PeerId.deserialize s = some p) : p.serialize = s := by
  unfold PeerId.deserialize PeerId.fromStr at h
  split at h
  · cases h
  · rename_i bs hb
    have := (PeerId.fromBytes_some h).1
    unfold PeerId.serialize PeerId.toBase58
    rw [← this]
    exact Base58.encode_decode hb

/-! ### Examples -/

end TG

namespace TG.PeerIdSerdeDemo
open TG.Toy

/-- C98: the peer id of a key, and one with a hash, as RSA keys have. -/
example : Spec.PeerIdExists (pk 1).toPeerId ∧ (pk 1).toPeerId.inlined = true ∧ Spec.PeerIdExists ⟨false, List.replicate 32 7⟩ :=
  ⟨.inl ⟨_, rfl⟩, by decide +kernel, .inr ⟨PeerId.toBase58 ⟨false, List.replicate 32 7⟩, by decide +kernel⟩⟩

/-- Not everything is a peer id: an inlined key of 43 bytes, and a text with a trailing byte. -/
example : PeerId.deserialize (PeerId.toBase58 ⟨true, List.replicate 43 7⟩) = none ∧
    PeerId.deserialize (Base58.encode ((pk 1).toPeerId.toBytes ++ [0])) = none := by decide +kernel

end TG.PeerIdSerdeDemo
