/-
C146: the formats in which keys, signatures, trusts and certificates are exchanged.
-/
import Verif.Props.Formats
import Verif.Props.PeerIds
import Verif.Props.Serde
import Verif.Spec.Wire

namespace TG

theorem Wire.value_le8 (x : UInt64) : Spec.Wire.value (le8 x) = x.toNat := by
  have h := x.toNat_lt
  simp only [le8, Spec.Wire.value, UInt8.toNat_ofNat']
  omega

theorem Wire.value_inj {a b : Bytes} (hl : a.length = b.length) (h : Spec.Wire.value a = Spec.Wire.value b) : a = b := by
  induction a generalizing b with
  | nil => cases b with
    | nil => rfl
    | cons => simp at hl
  | cons x a ih => cases b with
    | nil => simp at hl
    | cons y b =>
      simp only [Spec.Wire.value] at h
      have hx := x.toNat_lt
      have hy := y.toNat_lt
      obtain rfl : x = y := UInt8.toNat.inj (by omega)
      rw [ih (by simpa using hl) (by omega)]

theorem Wire.secs_iff {d : Dur} {bs : Bytes} : Spec.Wire.Secs d bs ↔ bs = le8 d.secs := by
  constructor
  · rintro ⟨hl, hv⟩
    exact Wire.value_inj (by rw [hl, le8_length]) (by rw [hv, Wire.value_le8])
  · rintro rfl
    exact ⟨rfl, Wire.value_le8 _⟩

section
theorem Wire.lenBytes_two {n : Nat} (h : 256 ≤ n) (h' : n < 65536) : Der.lenBytes n = [0x82, UInt8.ofNat (n / 256), UInt8.ofNat (n % 256)] := by
  unfold Der.lenBytes
  rw [if_neg (by omega), Base58.digits_pos (by omega) (by omega), Base58.digits_pos (n := n / 256) (by omega) (by omega), Nat.div_eq_of_lt (by omega : n / 256 < 256),
    Base58.digits_zero, Nat.mod_eq_of_lt (by omega : n / 256 < 256)]
  rfl

theorem Wire.varint_two {n f : Nat} (h : 128 ≤ n) (h' : n < 16384) : varint (f + 1) n = [UInt8.ofNat (n % 128 + 128), UInt8.ofNat (n / 128)] := by
  cases f <;> simp [varint, show ¬ n < 128 by omega, show n / 128 < 128 by omega]

/-- **C146**: the peer ids of RSA keys. -/
theorem C146_rsa_records [Env] (b : Bytes) (hw : Env.wasm = false) (h : 256 ≤ b.length) (h' : b.length < 16360) :
    Spec.Wire.RsaPeer b (PublicKey.rsa b hw).toPeerId.toBase58 := by
  have ha : Der.algorithmIdentifier = [0x30, 0x0D, 0x06, 0x09, 0x2A, 0x86, 0x48, 0x86, 0xF7, 0x0D, 0x01, 0x01, 0x01, 0x05, 0x00] := by decide +kernel
  have hk : Der.tlv 0x03 (0 :: b) = [0x03, 0x82, UInt8.ofNat ((b.length + 1) / 256), UInt8.ofNat ((b.length + 1) % 256), 0x00] ++ b := by
    rw [Der.tlv, List.length_cons, Wire.lenBytes_two (by omega) (by omega)]
    rfl
  have hx : Der.encodeX509 b = [0x30, 0x82, UInt8.ofNat ((b.length + 20) / 256), UInt8.ofNat ((b.length + 20) % 256)] ++ Der.algorithmIdentifier ++
      [0x03, 0x82, UInt8.ofNat ((b.length + 1) / 256), UInt8.ofNat ((b.length + 1) % 256), 0x00] ++ b := by
    have hl : (Der.algorithmIdentifier ++ Der.tlv 0x03 (0 :: b)).length = b.length + 20 := by
      rw [hk, ha]
      simp
    rw [Der.encodeX509, Der.tlv, hl, Wire.lenBytes_two (by omega) (by omega), hk]
    simp
  have hl : (Der.encodeX509 b).length = b.length + 24 := by
    rw [hx, ha]
    simp
  have hp : pbEncode 0 (Der.encodeX509 b) = [0x08, 0x00, 0x12] ++ [UInt8.ofNat ((b.length + 24) % 128 + 128), UInt8.ofNat ((b.length + 24) / 128)] ++
      Der.encodeX509 b := by
    rw [pbEncode, hl, Wire.varint_two (f := b.length + 23) (by omega) (by omega)]
    rfl
  have hs : (PublicKey.rsa b hw).toPeerId.toBase58 = Base58.encode ([0x12, 0x20] ++ Env.sha256 (pbEncode 0 (Der.encodeX509 b))) := by
    have hd : (PublicKey.rsa b hw).toPeerId =
        if (pbEncode 0 (Der.encodeX509 b)).length ≤ 42 then ⟨true, pbEncode 0 (Der.encodeX509 b)⟩ else ⟨false, Env.sha256 (pbEncode 0 (Der.encodeX509 b))⟩ := rfl
    rw [hd, PeerId.toBase58, if_neg (show ¬ (pbEncode 0 (Der.encodeX509 b)).length ≤ 42 by rw [hp]; simp; omega), PeerId.toBytes]
    simp only [Env.sha256_length]
    rfl
  have e : ∀ n, n < 256 → (UInt8.ofNat n).toNat = n := fun n hn => by rw [UInt8.toNat_ofNat']; exact Nat.mod_eq_of_lt hn
  rw [hs, hp, hx, ha]
  generalize hN : b.length = N at *
  refine ⟨UInt8.ofNat ((N + 20) / 256), UInt8.ofNat ((N + 20) % 256), UInt8.ofNat ((N + 1) / 256), UInt8.ofNat ((N + 1) % 256),
    UInt8.ofNat ((N + 24) % 128 + 128), UInt8.ofNat ((N + 24) / 128), ?_, ?_, ?_, ?_, ?_, ?_⟩
  · rw [e _ (by omega), e _ (by omega)]; omega
  · rw [e _ (by omega), e _ (by omega)]; omega
  · rw [e _ (by omega), e _ (by omega)]; omega
  · rw [e _ (by omega)]; omega
  · rw [e _ (by omega)]; omega
  · simp only [List.cons_append, List.nil_append]

variable [Env]

theorem Wire.key_iff {k : PublicKey} {bs : Bytes} : Spec.Wire.Key k bs ↔ bs = k.encode := by
  cases k <;> exact Iff.rfl

theorem Wire.sig_iff {s : Signature} {bs : Bytes} : Spec.Wire.Sig s bs ↔ bs = s.encode := by
  cases s <;> exact Iff.rfl

omit [Env] in
theorem Wire.byte_iff {n : UInt8} {l : Nat} : n.toNat = l ↔ n = UInt8.ofNat l ∧ l < 256 := by
  constructor
  · rintro rfl
    exact ⟨by simp, n.toNat_lt⟩
  · rintro ⟨rfl, h⟩
    simp only [UInt8.toNat_ofNat']
    exact Nat.mod_eq_of_lt h

theorem Wire.trust_iff {t : Trust} {bs : Bytes} : Spec.Wire.OfTrust t bs ↔ bs = t.encode ∧ t.issuedFor.encode.length < 256 ∧ t.signature.encode.length < 256 := by
  constructor
  · rintro ⟨hk, hs, he, hi, hn, hm⟩
    cases Wire.key_iff.mp hk
    cases Wire.sig_iff.mp hs
    cases Wire.secs_iff.mp he
    cases Wire.secs_iff.mp hi
    obtain ⟨rfl, h1⟩ := Wire.byte_iff.mp hn
    obtain ⟨rfl, h2⟩ := Wire.byte_iff.mp hm
    exact ⟨by simp [Trust.encode], h1, h2⟩
  · rintro ⟨rfl, h1, h2⟩
    have := Spec.Wire.OfTrust.mk (t := t) (Wire.key_iff.mpr rfl) (Wire.sig_iff.mpr rfl) (Wire.secs_iff.mpr rfl) (Wire.secs_iff.mpr rfl)
      (Wire.byte_iff.mpr ⟨rfl, h1⟩) (Wire.byte_iff.mpr ⟨rfl, h2⟩)
    simpa [Trust.encode] using this

theorem Wire.trusts_iff {ts : List Trust} {bs : Bytes} : Spec.Wire.OfTrusts ts bs ↔
    bs = ts.flatMap Certificate.block ∧ ∀ t ∈ ts, t.issuedFor.encode.length < 256 ∧ t.signature.encode.length < 256 ∧ t.encode.length < 256 := by
  constructor
  · intro h
    induction h with
    | nil => exact ⟨rfl, by simp⟩
    | cons ht hn _ ih =>
      obtain ⟨rfl, h1, h2⟩ := Wire.trust_iff.mp ht
      obtain ⟨rfl, h3⟩ := Wire.byte_iff.mp hn
      obtain ⟨rfl, h4⟩ := ih
      refine ⟨by simp [Certificate.block], fun x hx => ?_⟩
      rcases List.mem_cons.mp hx with rfl | hx
      · exact ⟨h1, h2, h3⟩
      · exact h4 x hx
  · rintro ⟨rfl, h⟩
    induction ts with
    | nil => exact .nil
    | cons t ts ih =>
      have ht := h t (by simp)
      have := Spec.Wire.OfTrusts.cons (Wire.trust_iff.mpr ⟨rfl, ht.1, ht.2.1⟩) (Wire.byte_iff.mpr ⟨rfl, ht.2.2⟩) (ih fun x hx => h x (by simp [hx]))
      simpa [Certificate.block] using this

/-- **C146**: the bytes of keys and signatures, written and read. -/
theorem C146_keys_and_signatures (k : PublicKey) (s : Signature) (bs : Bytes) :
    (k.encode = bs ↔ Spec.Wire.Key k bs) ∧ (PublicKey.decode bs = .ok k ↔ Spec.Wire.Key k bs) ∧
    (s.encode = bs ↔ Spec.Wire.Sig s bs) ∧ (Signature.decode bs = .ok s ↔ Spec.Wire.Sig s bs) := by
  rw [Wire.key_iff, Wire.sig_iff]
  exact ⟨eq_comm, ⟨PublicKey.decode_ok, fun h => h ▸ PublicKey.decode_encode k⟩, eq_comm, ⟨Signature.decode_ok, fun h => h ▸ Signature.decode_encode s⟩⟩

/-- **C146**: the bytes that are read as a trust; for keys and signatures of fewer than 256 bytes, these are written. -/
theorem C146_trusts (t : Trust) (bs : Bytes) :
    (Trust.decode bs = .ok t ↔ Spec.Wire.OfTrust t bs ∧ t.expiresAt.nanos = 0 ∧ t.issuedAt.nanos = 0) ∧
    (∀ k s, Spec.Wire.Key t.issuedFor k → Spec.Wire.Sig t.signature s → k.length < 256 → s.length < 256 → Spec.Wire.OfTrust t t.encode) := by
  rw [Wire.trust_iff, Trust.decode_ok_iff]
  refine ⟨?_, fun k s hk hs h1 h2 => ?_⟩
  · exact ⟨fun ⟨h1, h2, h3, h4⟩ => ⟨⟨h1, h3, h4⟩, h2⟩, fun ⟨⟨h1, h3, h4⟩, h2⟩ => ⟨h1, h2, h3, h4⟩⟩
  · cases Wire.key_iff.mp hk
    cases Wire.sig_iff.mp hs
    exact Wire.trust_iff.mpr ⟨rfl, h1, h2⟩

/-- **C146**: the bytes that are read as a certificate: six bytes of any value, the number of trusts, at least two, the trusts, and then anything. -/
theorem C146_certificates (c : Certificate) (bs : Bytes) :
    Certificate.decode bs = .ok c ↔ (∃ (head : Bytes) (n : UInt8) (b rest : Bytes), bs = head ++ [n] ++ b ++ rest ∧ head.length = 6 ∧ n.toNat = c.chain.length ∧
      Spec.Wire.OfTrusts c.chain b) ∧ 2 ≤ c.chain.length ∧ ∀ t ∈ c.chain, t.expiresAt.nanos = 0 ∧ t.issuedAt.nanos = 0 := by
  rw [Certificate.decode_ok_iff]
  constructor
  · rintro ⟨h2, ⟨n, hn, hl⟩, hf, rest, hp⟩
    refine ⟨⟨bs.take 6, n, _, rest, ?_, ?_, hl, Wire.trusts_iff.mpr ⟨rfl, fun t ht => (hf t ht).2⟩⟩, h2, fun t ht => (hf t ht).1⟩
    · rw [List.append_assoc, hp]
      conv_lhs => rw [← List.take_append_drop 6 bs, List.drop_eq_getElem?_toList_append, hn]
      simp
    · rw [List.length_take]
      have := (List.getElem?_eq_some_iff.mp hn).1
      omega
  · rintro ⟨⟨head, n, b, rest, rfl, hh, hn, hb⟩, h2, hw⟩
    obtain ⟨rfl, hf⟩ := Wire.trusts_iff.mp hb
    refine ⟨h2, ⟨n, ?_, hn⟩, fun t ht => ⟨hw t ht, hf t ht⟩, rest, ?_⟩
    · rw [List.append_assoc, List.append_assoc, List.getElem?_append_right (by omega), hh]; rfl
    · rw [show head ++ [n] ++ c.chain.flatMap Certificate.block ++ rest = (head ++ [n]) ++ (c.chain.flatMap Certificate.block ++ rest) by simp,
        List.drop_append_of_le_length (by simp [hh]), List.drop_of_length_le (by simp [hh]), List.nil_append]

/-- **C146**: the bytes that are written for a certificate, if the lengths fit into a byte. -/
theorem C146_certificates_written (c : Certificate) (b : Bytes) (n : UInt8) (h : Spec.Wire.OfTrusts c.chain b) (hn : n.toNat = c.chain.length) :
    c.encode = [0, 0, 0, 0, 0, 0, n] ++ b := by
  obtain ⟨rfl, -⟩ := Wire.trusts_iff.mp h
  obtain ⟨rfl, -⟩ := Wire.byte_iff.mp hn
  rfl

/-- **C146**: what the signatures are about: signature_bytes is the SHA-256 hash of the message, and a trust is accepted exactly if it has not expired and the
signature is one for this hash. -/
theorem C146_signed (t : Trust) (r : Revocation) (k : PublicKey) (now : Dur) (m m' : Bytes) (h : Spec.Wire.TrustMessage t.issuedFor t.expiresAt t.issuedAt m)
    (h' : Spec.Wire.RevocationMessage r.pk r.revokedAt m') :
    Trust.signatureBytes t.issuedFor t.expiresAt t.issuedAt = Env.sha256 m ∧ Revocation.signatureBytes r.pk r.revokedAt = Env.sha256 m' ∧
    (t.verify k now = .ok () ↔ now.total ≤ t.expiresAt.total ∧ k.verify (Env.sha256 m) t.signature = .ok ()) ∧
    (r.verify = .ok () ↔ r.revokedBy.verify (Env.sha256 m') r.signature = .ok ()) := by
  obtain ⟨hk, he, hi⟩ := h
  cases Wire.key_iff.mp hk
  cases Wire.secs_iff.mp he
  cases Wire.secs_iff.mp hi
  obtain ⟨hk', hn, hr⟩ := h'
  cases Wire.key_iff.mp hk'
  cases Wire.secs_iff.mp hr
  obtain rfl : _ = UInt8.ofNat r.pk.encode.length := UInt8.toNat.inj (by rw [hn, UInt8.toNat_ofNat'])
  have ok : ∀ {ε ε' : Type} {f : ε → ε'} {o : Outcome ε Unit}, o.mapErr f = .ok () ↔ o = .ok () := by
    intro ε ε' f o
    cases o <;> simp [Outcome.mapErr]
  refine ⟨rfl, rfl, ?_, ok⟩
  unfold Trust.verify
  split
  · next hx => exact iff_of_false (by simp) fun h => absurd (Dur.lt_iff.mp hx) (by omega)
  · next hx =>
    rw [Dur.lt_iff] at hx
    exact ok.trans ⟨fun h => ⟨by omega, h⟩, fun h => h.2⟩

/-- **C146**: the texts by which the service calls keys, and the records it returns. -/
theorem C146_records (k : PublicKey) (t : Trust) (r : Revocation) (hk : k.NotRsa) :
    Spec.Wire.Peer k k.toPeerId.toBase58 ∧
    (Dto.ofTrust t).expiresAt = t.expiresAt.secs ∧ (Dto.ofTrust t).issuedAt = t.issuedAt.secs ∧ (Dto.ofTrust t).issuedFor = t.issuedFor.toPeerId.toBase58 ∧
    Spec.Wire.SigTexts t.signature (Dto.ofTrust t).signature (Dto.ofTrust t).sigType ∧
    (Dto.ofRevocation r).revokedAt = r.revokedAt.secs ∧ (Dto.ofRevocation r).revokedPeerId = r.pk.toPeerId.toBase58 ∧
    (Dto.ofRevocation r).revokedBy = r.revokedBy.toPeerId.toBase58 ∧
    Spec.Wire.SigTexts r.signature (Dto.ofRevocation r).signature (Dto.ofRevocation r).sigType := by
  have sig : ∀ s : Signature, Spec.Wire.SigTexts s (Base58.encode s.raw) s.sigType.toStr := fun s => by cases s <;> exact ⟨rfl, rfl⟩
  refine ⟨?_, rfl, rfl, rfl, sig _, rfl, rfl, rfl, sig _⟩
  cases k with
  | rsa => exact hk.elim
  | ed25519 b hb _ =>
    simp [Spec.Wire.Peer, PublicKey.toPeerId, PublicKey.toLibp2p, PeerId.toBase58, PeerId.toBytes, pbEncode, varint, hb]
  | secp256k1 b hb _ =>
    simp [Spec.Wire.Peer, PublicKey.toPeerId, PublicKey.toLibp2p, PeerId.toBase58, PeerId.toBytes, pbEncode, varint, hb]

/-- **C146**: the bytes of key pairs: for Ed25519 the secret and the public key, for Secp256k1 the secret. -/
theorem C146_key_pairs (sk bs : Bytes) :
    (∀ l, (KeyPair.ed25519 sk l).toVec = .ok bs ↔ ∃ p hp hv, (KeyPair.ed25519 sk l).pub = .ed25519 p hp hv ∧ bs = sk ++ p) ∧
    (∀ l v, (KeyPair.secp256k1 sk l v).toVec = .ok bs ↔ bs = sk) ∧
    (∀ l, (KeyPair.ed25519 sk l).secret = .ok bs ↔ bs = sk) ∧ (∀ l v, (KeyPair.secp256k1 sk l v).secret = .ok bs ↔ bs = sk) := by
  have ok : ∀ {a : Bytes}, (.ok a : Outcome Unit Bytes) = .ok bs ↔ bs = a := fun {a} => ⟨fun h => by cases h; rfl, fun h => by rw [h]⟩
  refine ⟨fun l => ok.trans ⟨fun h => ⟨_, _, _, rfl, h⟩, ?_⟩, fun _ _ => ok, fun _ => ok, fun _ _ => ok⟩
  rintro ⟨p, hp, hv, e, rfl⟩
  cases e
  rfl

/-- **C146**: relations in JSON, written and read. -/
theorem C146_json (r : TrustRelation) (t : Trust) (k : PublicKey) (s : Signature) :
    (Serde.relation ⟨false, true, true⟩ r = Spec.Wire.jsonRelation r ∧ Serde.readRelation (Spec.Wire.jsonRelation r) = .ok r) ∧
    (Serde.trust ⟨false, true, true⟩ t = Spec.Wire.jsonTrust t ∧ Serde.readTrust (Spec.Wire.jsonTrust t) = .ok t) ∧
    (Serde.publicKey ⟨false, true, true⟩ k = Spec.Wire.jsonKey k ∧ Serde.readPublicKey (Spec.Wire.jsonKey k) = .ok k) ∧
    (Serde.signature ⟨false, true, true⟩ s = Spec.Wire.jsonSig s ∧ Serde.readSignature (Spec.Wire.jsonSig s) = .ok s) := by
  have key : ∀ k : PublicKey, Serde.publicKey ⟨false, true, true⟩ k = Spec.Wire.jsonKey k := fun k => by cases k <;> rfl
  have sig : ∀ s : Signature, Serde.signature ⟨false, true, true⟩ s = Spec.Wire.jsonSig s := fun s => by cases s <;> rfl
  have tr : ∀ t : Trust, Serde.trust ⟨false, true, true⟩ t = Spec.Wire.jsonTrust t := fun t => by
    unfold Serde.trust Spec.Wire.jsonTrust; rw [key, sig]; rfl
  have rel : Serde.relation ⟨false, true, true⟩ r = Spec.Wire.jsonRelation r := by
    cases r with
    | auth a => simp only [Serde.relation, Serde.auth, Spec.Wire.jsonRelation, key, tr]; rfl
    | revocation r => simp only [Serde.relation, Serde.revocation, Spec.Wire.jsonRelation, key, sig]; rfl
  obtain ⟨h1, h2, h3, h4⟩ := C104_serde_partial ⟨false, true, true⟩
  exact ⟨⟨rel, rel ▸ h4 r⟩, ⟨tr t, tr t ▸ h3 t⟩, ⟨key k, key k ▸ h1 k⟩, ⟨sig s, sig s ▸ h2 s⟩⟩

end

/-! ### Examples in the toy environment -/

open TG.Toy

/-- C146: a trust in a key, with the bytes counted out. -/
example : Trust.decode ([33] ++ (0 :: (pk 2).raw) ++ [UInt8.ofNat (1 + (trust 1 2 258 10).signature.raw.length)] ++ (0 :: (trust 1 2 258 10).signature.raw) ++
      [2, 1, 0, 0, 0, 0, 0, 0] ++ [10, 0, 0, 0, 0, 0, 0, 0]) = .ok (trust 1 2 258 10) ∧
    (pk 2).raw.length = 32 ∧ Spec.Wire.Secs (s 258) [2, 1, 0, 0, 0, 0, 0, 0] := by
  unfold Spec.Wire.Secs
  decide +kernel

/-- C146: messages exist. -/
example : Spec.Wire.TrustMessage (pk 2) (s 258) (s 10) ((0 :: (pk 2).raw) ++ [2, 1, 0, 0, 0, 0, 0, 0] ++ [10, 0, 0, 0, 0, 0, 0, 0]) :=
  .mk rfl ⟨rfl, by decide⟩ ⟨rfl, by decide⟩

/-- C146: an RSA key of 2048 bits has 270 bytes. -/
example : (@Env.wasm (Toy.env false false).toEnv) = false ∧ 256 ≤ (List.replicate 270 (7 : UInt8)).length ∧ (List.replicate 270 (7 : UInt8)).length < 16360 := by
  decide +kernel

/-- C146: a certificate whose bytes are read. -/
example : ∃ b, Spec.Wire.OfTrusts [trust 1 1 50 10, trust 1 2 50 10] b ∧ (pk 2).NotRsa :=
  ⟨_, Wire.trusts_iff.mpr ⟨rfl, by decide +kernel⟩, trivial⟩

end TG
