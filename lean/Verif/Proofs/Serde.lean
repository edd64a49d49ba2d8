/-
Reading back what was serialised.
-/
import Verif.Model.Serde
import Verif.Spec.Serde
import Verif.Proofs.Codec

namespace TG.Serde

theorem readU8s_map (b : Bytes) : readU8s (b.map (fun x => .num x.toNat)) = .ok b := by
  induction b with
  | nil => rfl
  | cons x xs ih =>
    have h : readU8 (.num x.toNat) = .ok x := by
      show (if x.toNat < 256 then Outcome.ok (UInt8.ofNat x.toNat) else .err Error.invalid) = _
      rw [if_pos x.toNat_lt, UInt8.ofNat_toNat]
    show (readU8 (.num x.toNat) >>= fun b => readU8s (xs.map _) >>= fun bs => .ok (b :: bs)) = _
    rw [h, ih]
    rfl

theorem readVec_vec (b : Bytes) : readVec (vec b) = .ok b := readU8s_map b

theorem readByteBuf_bytes (F : Format) (b : Bytes) : readByteBuf (F.bytes b) = .ok b := by
  unfold Format.bytes
  split
  · rfl
  · exact readU8s_map b

theorem readDuration_duration (F : Format) (d : Dur) : readDuration (duration F d) = .ok d := by
  obtain ⟨s, ⟨n, hn⟩⟩ := d
  have hs := s.toNat_lt
  have e1 : n / 1000000000 = 0 := Nat.div_eq_of_lt hn
  have e2 : n % 1000000000 = n := Nat.mod_eq_of_lt hn
  have key : (if s.toNat < 2 ^ 64 ∧ n < 2 ^ 32 ∧ s.toNat + n / 1000000000 < 2 ^ 64 then
      (.ok ⟨UInt64.ofNat (s.toNat + n / 1000000000), ⟨n % 1000000000, Nat.mod_lt _ (by decide)⟩⟩ : Outcome Error Dur)
    else .err .invalid) = .ok ⟨s, ⟨n, hn⟩⟩ := by
    rw [if_pos ⟨hs, by omega, by omega⟩]
    simp only [e1, e2, Nat.add_zero, UInt64.ofNat_toNat]
  unfold duration Format.struct
  split <;> exact key

theorem ed25519_mem (w : Bool) : "Ed25519".toList ∈ formats w := by cases w <;> decide

theorem rsa_mem : "Rsa".toList ∈ formats false := by decide

theorem secp256k1_mem (w : Bool) : "Secp256k1".toList ∈ formats w := by cases w <;> decide

section
variable [Env]

theorem formatAt_idxOf (k : KeyFormat) : formatAt ((formats Env.wasm).idxOf (formatName k)) = k := by
  cases k with
  | ed25519 =>
    have : (formats Env.wasm).idxOf (formatName .ed25519) = 0 := by cases Env.wasm <;> rfl
    rw [this]
    rfl
  | rsa h =>
    have : (formats Env.wasm).idxOf (formatName (.rsa h)) = 1 := by rw [h]; rfl
    rw [this]
    exact dif_pos h
  | secp256k1 =>
    by_cases hw : Env.wasm = false
    · have : (formats Env.wasm).idxOf (formatName .secp256k1) = 2 := by rw [hw]; rfl
      rw [this]
      rfl
    · have : (formats Env.wasm).idxOf (formatName .secp256k1) = 1 := by rw [Bool.not_eq_false _ |>.mp hw]; rfl
      rw [this]
      exact dif_neg hw

theorem readFormat_formatVariant (F : Format) (k : KeyFormat) (v : Value) : readFormat (formatVariant F k v) = .ok (k, v) := by
  have hm : formatName k ∈ formats Env.wasm := by
    cases k with
    | ed25519 => exact ed25519_mem _
    | rsa h => rw [h]; exact rsa_mem
    | secp256k1 => exact secp256k1_mem _
  have h : readEnum (formats Env.wasm) (formatVariant F k v) = .ok ((formats Env.wasm).idxOf (formatName k), v) := by
    unfold formatVariant Format.variant
    split
    · exact if_pos hm
    · exact if_pos (List.idxOf_lt_length_of_mem hm)
  unfold readFormat
  rw [h]
  show Outcome.ok (formatAt _, v) = _
  rw [formatAt_idxOf]

theorem readPublicKey_publicKey (F : Format) (pk : PublicKey) : readPublicKey (publicKey F pk) = .ok pk := by
  cases pk with
  | ed25519 b l v =>
    unfold readPublicKey publicKey
    rw [readFormat_formatVariant]
    show readEd25519 (F.bytes b) = _
    have hd : Ed25519.decode b = .ok (.ed25519 b l v) := by simp [Ed25519.decode, l, v]
    unfold Format.bytes
    split
    · show (Ed25519.decode b).mapErr _ = _
      rw [hd]; rfl
    · show (readU8s (b.map _) >>= fun b => (Ed25519.decode b).mapErr _) = _
      rw [readU8s_map]
      show (Ed25519.decode b).mapErr _ = _
      rw [hd]; rfl
  | rsa b h =>
    unfold readPublicKey publicKey
    rw [readFormat_formatVariant]
    show (readVec (vec b) >>= fun b => Outcome.ok (PublicKey.rsa b h)) = _
    rw [readVec_vec]; rfl
  | secp256k1 b l v =>
    unfold readPublicKey publicKey
    rw [readFormat_formatVariant]
    show (readByteBuf (F.bytes b) >>= fun b => (Secp256k1.decode b).mapErr _) = _
    rw [readByteBuf_bytes]
    show (Secp256k1.decode b).mapErr _ = _
    have hd : Secp256k1.decode b = .ok (.secp256k1 b l v) := by simp [Secp256k1.decode, l, v]
    rw [hd]; rfl

theorem readSignature_signature (F : Format) (s : Signature) : readSignature (signature F s) = .ok s := by
  unfold readSignature signature
  rw [readFormat_formatVariant]
  show (readVec (vec s.raw) >>= fun b => Outcome.ok (Signature.fromBytes s.sigType b)) = _
  rw [readVec_vec]
  show Outcome.ok (Signature.fromBytes s.sigType s.raw) = _
  rw [Signature.fromBytes_raw]

theorem readTrust_trust (F : Format) (t : Trust) : readTrust (trust F t) = .ok t := by
  have h : readStruct trustFields (trust F t) =
      .ok [publicKey F t.issuedFor, duration F t.expiresAt, signature F t.signature, duration F t.issuedAt] := by
    unfold trust Format.struct
    split <;> rfl
  unfold readTrust
  rw [h]
  show (readPublicKey _ >>= fun a => readDuration _ >>= fun b => readSignature _ >>= fun c => readDuration _ >>= fun d => _) = _
  rw [readPublicKey_publicKey, readDuration_duration, readSignature_signature, readDuration_duration]
  rfl

theorem readRevocation_revocation (F : Format) (r : Revocation) : readRevocation (revocation F r) = .ok r := by
  have h : readStruct revocationFields (revocation F r) =
      .ok [publicKey F r.pk, duration F r.revokedAt, publicKey F r.revokedBy, signature F r.signature] := by
    unfold revocation Format.struct
    split <;> rfl
  unfold readRevocation
  rw [h]
  show (readPublicKey _ >>= fun a => readDuration _ >>= fun b => readPublicKey _ >>= fun c => readSignature _ >>= fun d => _) = _
  rw [readPublicKey_publicKey, readDuration_duration, readPublicKey_publicKey, readSignature_signature]
  rfl

theorem readRelation_relation (F : Format) (r : TrustRelation) : readRelation (relation F r) = .ok r := by
  cases r with
  | auth a =>
    have h : readEnum ["Auth".toList, "Revocation".toList] (relation F (.auth a)) = .ok (0, auth F a) := by
      simp only [relation, Format.variant]
      split <;> rfl
    have h' : readStruct ["trust".toList, "issued_by".toList] (auth F a) = .ok [trust F a.trust, publicKey F a.issuedBy] := by
      unfold auth Format.struct
      split <;> rfl
    unfold readRelation
    rw [h]
    show (readAuth (auth F a) >>= fun a => Outcome.ok (TrustRelation.auth a)) = _
    unfold readAuth
    rw [h']
    show ((readTrust _ >>= fun t => readPublicKey _ >>= fun b => .ok _) >>= fun a => Outcome.ok (TrustRelation.auth a)) = _
    rw [readTrust_trust, readPublicKey_publicKey]
    rfl
  | revocation r =>
    have h : readEnum ["Auth".toList, "Revocation".toList] (relation F (.revocation r)) = .ok (1, revocation F r) := by
      simp only [relation, Format.variant]
      split <;> rfl
    unfold readRelation
    rw [h]
    show (readRevocation (revocation F r) >>= fun a => Outcome.ok (TrustRelation.revocation a)) = _
    rw [readRevocation_revocation]
    rfl

/-- The outcome is a value or an error. -/
def Ends {α : Type} (o : Outcome Error α) : Prop := (∃ a, o = .ok a) ∨ o = .err .invalid

omit [Env] in
theorem Ends.bind {α β : Type} {x : Outcome Error α} {f : α → Outcome Error β} (hx : Ends x) (hf : ∀ a, Ends (f a)) : Ends (x >>= f) := by
  rcases hx with ⟨a, rfl⟩ | rfl
  · exact hf a
  · exact .inr rfl

omit [Env] in
theorem Ends.ok {α : Type} (a : α) : Ends (.ok a) := .inl ⟨a, rfl⟩

omit [Env] in
theorem Ends.invalid {α : Type} : Ends (.err .invalid : Outcome Error α) := .inr rfl

omit [Env] in
theorem readU8s_ends (vs : List Value) : Ends (readU8s vs) := by
  induction vs with
  | nil => exact .ok _
  | cons v vs ih =>
    refine Ends.bind ?_ fun b => ih.bind fun bs => .ok _
    unfold readU8
    split
    · split
      · exact .ok _
      · exact .invalid
    · exact .invalid

omit [Env] in
theorem readVec_ends (v : Value) : Ends (readVec v) := by
  unfold readVec
  split
  · exact readU8s_ends _
  · exact .invalid

omit [Env] in
theorem readByteBuf_ends (v : Value) : Ends (readByteBuf v) := by
  unfold readByteBuf
  split
  · exact readU8s_ends _
  · exact .ok _
  · exact .ok _
  · exact .invalid

omit [Env] in
theorem fieldValues_ends (fields : List (Str × Value)) (names : List Str) : Ends (fieldValues fields names) := by
  induction names with
  | nil => exact .ok _
  | cons n ns ih =>
    refine Ends.bind ?_ fun b => ih.bind fun bs => .ok _
    unfold field
    split
    · exact .ok _
    · exact .invalid

omit [Env] in
theorem readStruct_ends (names : List Str) (v : Value) : Ends (readStruct names v) := by
  unfold readStruct
  split
  · split
    · exact .ok _
    · exact .invalid
  · exact fieldValues_ends _ _
  · exact .invalid

omit [Env] in
theorem readEnum_ends (names : List Str) (v : Value) : Ends (readEnum names v) := by
  unfold readEnum
  split
  · split
    · exact .ok _
    · exact .invalid
  · split
    · exact .ok _
    · exact .invalid
  · exact .invalid

omit [Env] in
theorem readDuration_ends (v : Value) : Ends (readDuration v) := by
  unfold readDuration
  refine Ends.bind ?_ fun _ => (readStruct_ends _ _).bind fun vs => ?_
  · unfold onlyFields
    split
    · split
      · exact .ok _
      · exact .invalid
    · exact .ok _
  · split
    · split
      · exact .ok _
      · exact .invalid
    · exact .invalid

theorem readFormat_ends (v : Value) : Ends (readFormat v) := (readEnum_ends _ _).bind fun _ => .ok _

omit [Env] in
theorem Ends.mapErr {ε α : Type} {x : Outcome ε α} (h : (∃ a, x = .ok a) ∨ ∃ e, x = .err e) : Ends (x.mapErr fun _ => .invalid) := by
  rcases h with ⟨a, rfl⟩ | ⟨e, rfl⟩
  · exact .ok _
  · exact .invalid

theorem ed25519_ends (b : Bytes) : Ends ((Ed25519.decode b).mapErr fun _ => .invalid) := by
  apply Ends.mapErr
  unfold Ed25519.decode
  split
  · split
    · exact .inl ⟨_, rfl⟩
    · exact .inr ⟨_, rfl⟩
  · exact .inr ⟨_, rfl⟩

theorem secp256k1_ends (b : Bytes) : Ends ((Secp256k1.decode b).mapErr fun _ => .invalid) := by
  apply Ends.mapErr
  unfold Secp256k1.decode
  split
  · split
    · exact .inl ⟨_, rfl⟩
    · exact .inr ⟨_, rfl⟩
  · exact .inr ⟨_, rfl⟩

theorem readPublicKey_ends (v : Value) : Ends (readPublicKey v) := by
  refine (readFormat_ends v).bind fun kv => ?_
  obtain ⟨k, w⟩ := kv
  cases k with
  | ed25519 =>
    show Ends (readEd25519 w)
    unfold readEd25519
    split
    · exact ed25519_ends _
    · exact (readU8s_ends _).bind fun b => ed25519_ends b
    · exact .invalid
  | rsa h => exact (readVec_ends w).bind fun b => .ok _
  | secp256k1 => exact (readByteBuf_ends w).bind fun b => secp256k1_ends b

theorem readSignature_ends (v : Value) : Ends (readSignature v) := (readFormat_ends v).bind fun kv => (readVec_ends kv.2).bind fun _ => .ok _

theorem readTrust_ends (v : Value) : Ends (readTrust v) := by
  refine (readStruct_ends _ v).bind fun vs => ?_
  split
  · exact (readPublicKey_ends _).bind fun _ => (readDuration_ends _).bind fun _ => (readSignature_ends _).bind fun _ => (readDuration_ends _).bind fun _ => .ok _
  · exact .invalid

theorem readRevocation_ends (v : Value) : Ends (readRevocation v) := by
  refine (readStruct_ends _ v).bind fun vs => ?_
  split
  · exact (readPublicKey_ends _).bind fun _ => (readDuration_ends _).bind fun _ => (readPublicKey_ends _).bind fun _ => (readSignature_ends _).bind fun _ => .ok _
  · exact .invalid

theorem readRelation_ends (v : Value) : Ends (readRelation v) := by
  refine (readEnum_ends _ v).bind fun vs => ?_
  split
  · refine Ends.bind ((readStruct_ends _ _).bind fun vs => ?_) fun _ => .ok _
    split
    · exact (readTrust_ends _).bind fun _ => (readPublicKey_ends _).bind fun _ => .ok _
    · exact .invalid
  · exact (readRevocation_ends _).bind fun _ => .ok _
  · exact .invalid

end

section
variable {A B : Env} {F : Format}

theorem publicKey_same (hF : F.variantNames = true) (hk : SameKeys A B) {p : @PublicKey A} (hp : p.Supported B) :
    ∃ q : @PublicKey B, p.Same q ∧ @publicKey A F p = @publicKey B F q := by
  have hv : ∀ i j n v, F.variant i n v = F.variant j n v := fun i j n v => by simp [Format.variant, hF]
  cases p with
  | ed25519 b l v => exact ⟨@PublicKey.ed25519 B b l (by rw [← v, hk.1]), rfl, hv _ _ _ _⟩
  | rsa b h => exact ⟨@PublicKey.rsa B b (hp h rfl), rfl, hv _ _ _ _⟩
  | secp256k1 b l v => exact ⟨@PublicKey.secp256k1 B b l (by rw [← v, hk.2]), rfl, hv _ _ _ _⟩

theorem signature_same (hF : F.variantNames = true) {s : @Signature A} (hs : s.Supported B) :
    ∃ s' : @Signature B, s.Same s' ∧ @signature A F s = @signature B F s' := by
  have hv : ∀ i j n v, F.variant i n v = F.variant j n v := fun i j n v => by simp [Format.variant, hF]
  cases s with
  | ed25519 b => exact ⟨@Signature.ed25519 B b, rfl, hv _ _ _ _⟩
  | rsa b h => exact ⟨@Signature.rsa B b (hs h rfl), rfl, hv _ _ _ _⟩
  | secp256k1 b => exact ⟨@Signature.secp256k1 B b, rfl, hv _ _ _ _⟩

theorem trust_same (hF : F.variantNames = true) (hk : SameKeys A B) {t : @Trust A} (ht : t.Supported B) :
    ∃ t' : @Trust B, t.Same t' ∧ @trust A F t = @trust B F t' := by
  obtain ⟨q, h1, h2⟩ := publicKey_same hF hk ht.1
  obtain ⟨s, h3, h4⟩ := signature_same hF ht.2
  refine ⟨@Trust.mk B q (@Trust.expiresAt A t) s (@Trust.issuedAt A t), ⟨h1, rfl, h3, rfl⟩, ?_⟩
  unfold trust
  rw [h2, h4]

theorem relation_same (hF : F.variantNames = true) (hk : SameKeys A B) {r : @TrustRelation A} (hr : r.Supported B) :
    ∃ r' : @TrustRelation B, r.Same r' ∧ @relation A F r = @relation B F r' := by
  cases r with
  | auth a =>
    obtain ⟨t, h1, h2⟩ := trust_same hF hk hr.1
    obtain ⟨q, h3, h4⟩ := publicKey_same hF hk hr.2
    refine ⟨@TrustRelation.auth B (@Auth.mk B t q), ⟨h1, h3⟩, ?_⟩
    simp only [relation, auth]
    rw [h2, h4]
  | revocation r =>
    obtain ⟨p, h1, h2⟩ := publicKey_same hF hk hr.1
    obtain ⟨q, h3, h4⟩ := publicKey_same hF hk hr.2.1
    obtain ⟨s, h5, h6⟩ := signature_same hF hr.2.2
    refine ⟨@TrustRelation.revocation B (@Revocation.mk B p (@Revocation.revokedAt A r) q s), ⟨h1, rfl, h3, h5⟩, ?_⟩
    simp only [relation, revocation]
    rw [h2, h4, h6]

end

end TG.Serde
