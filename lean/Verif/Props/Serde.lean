/-
C104: keys, signatures, trusts, revocations and relations survive serialisation.
-/
import Verif.Proofs.Serde
import Verif.Props.Keys

namespace TG
open Serde

/-- **C104** (one program).  Whatever is serialised in any format is read back unchanged, including fractions of seconds. -/
theorem C104_serde_partial [Env] (F : Format) :
    (∀ pk, readPublicKey (publicKey F pk) = .ok pk) ∧ (∀ s, readSignature (signature F s) = .ok s) ∧ (∀ t, readTrust (trust F t) = .ok t) ∧
    ∀ r, readRelation (relation F r) = .ok r :=
  ⟨readPublicKey_publicKey F, readSignature_signature F, readTrust_trust F, readRelation_relation F⟩

/-- **C104** (two programs).  In a format that names the variants of enums, what a program compiled for one target has serialised is read back unchanged by one
compiled for another, if the other has the key formats. -/
theorem C104_targets_partial {A B : Env} (hk : SameKeys A B) {F : Format} (hF : F.variantNames = true) :
    (∀ p : @PublicKey A, p.Supported B → ∃ q : @PublicKey B, @readPublicKey B (@publicKey A F p) = .ok q ∧ p.Same q) ∧
    (∀ s : @Signature A, s.Supported B → ∃ s' : @Signature B, @readSignature B (@signature A F s) = .ok s' ∧ s.Same s') ∧
    (∀ t : @Trust A, t.Supported B → ∃ t' : @Trust B, @readTrust B (@trust A F t) = .ok t' ∧ t.Same t') ∧
    ∀ r : @TrustRelation A, r.Supported B → ∃ r' : @TrustRelation B, @readRelation B (@relation A F r) = .ok r' ∧ r.Same r' := by
  refine ⟨fun p hp => ?_, fun s hs => ?_, fun t ht => ?_, fun r hr => ?_⟩
  · obtain ⟨q, h1, h2⟩ := publicKey_same hF hk hp
    exact ⟨q, by rw [h2]; exact readPublicKey_publicKey F q, h1⟩
  · obtain ⟨q, h1, h2⟩ := signature_same hF hs
    exact ⟨q, by rw [h2]; exact readSignature_signature F q, h1⟩
  · obtain ⟨q, h1, h2⟩ := trust_same hF hk ht
    exact ⟨q, by rw [h2]; exact readTrust_trust F q, h1⟩
  · obtain ⟨q, h1, h2⟩ := relation_same hF hk hr
    exact ⟨q, by rw [h2]; exact readRelation_relation F q, h1⟩

/-- **C104** (two programs, formats that number the variants, such as bincode).  A Secp256k1 key written by a native program cannot be read by one compiled for
wasm32, although both have the format; in the opposite direction it is read as an RSA key. -/
theorem C104_targets_fails {N W : Env} (hN : N.wasm = false) (hW : W.wasm = true) {F : Format} (hF : F.variantNames = false) (hB : F.byteStrings = false) (b : Bytes)
    (l : b.length = 33) :
    (∀ v, @readPublicKey W (@publicKey N F (@PublicKey.secp256k1 N b l v)) = .err .invalid) ∧
    (∀ v, @readPublicKey N (@publicKey W F (@PublicKey.secp256k1 W b l v)) = .ok (@PublicKey.rsa N b hN)) ∧
    @readSignature W (@signature N F (@Signature.secp256k1 N b)) = .err .invalid ∧
    @readSignature N (@signature W F (@Signature.secp256k1 W b)) = .ok (@Signature.rsa N b hN) := by
  have iN : (formats N.wasm).idxOf "Secp256k1".toList = 2 := by rw [hN]; rfl
  have iW : (formats W.wasm).idxOf "Secp256k1".toList = 1 := by rw [hW]; rfl
  have rW : ∀ v, @readFormat W (.numbered 2 v) = .err .invalid := by
    intro v
    unfold readFormat
    rw [hW]
    rfl
  have rN : ∀ v, @readFormat N (.numbered 1 v) = .ok (@KeyFormat.rsa N hN, v) := by
    intro v
    unfold readFormat
    rw [show readEnum (formats N.wasm) (.numbered 1 v) = .ok (1, v) by rw [hN]; rfl]
    show Outcome.ok (@formatAt N 1, v) = _
    rw [show @formatAt N 1 = @KeyFormat.rsa N hN from dif_pos hN]
  have wN : ∀ v, @formatVariant N F (@KeyFormat.secp256k1 N) v = .numbered 2 v := by
    intro v
    unfold formatVariant Format.variant
    rw [hF, show @formatName N (@KeyFormat.secp256k1 N) = "Secp256k1".toList from rfl, iN]
    rfl
  have wW : ∀ v, @formatVariant W F (@KeyFormat.secp256k1 W) v = .numbered 1 v := by
    intro v
    unfold formatVariant Format.variant
    rw [hF, show @formatName W (@KeyFormat.secp256k1 W) = "Secp256k1".toList from rfl, iW]
    rfl
  have hb : F.bytes b = vec b := by
    unfold Format.bytes
    rw [hB]
    rfl
  refine ⟨fun v => ?_, fun v => ?_, ?_, ?_⟩
  · unfold readPublicKey
    rw [show @publicKey N F (@PublicKey.secp256k1 N b l v) = _ from wN (F.bytes b), rW]
    rfl
  · unfold readPublicKey
    rw [show @publicKey W F (@PublicKey.secp256k1 W b l v) = _ from wW (F.bytes b), rN, hb]
    show (readVec (vec b) >>= fun b => Outcome.ok (@PublicKey.rsa N b hN)) = _
    rw [readVec_vec]
    rfl
  · unfold readSignature
    rw [show @signature N F (@Signature.secp256k1 N b) = _ from wN (vec b), rW]
    rfl
  · unfold readSignature
    rw [show @signature W F (@Signature.secp256k1 W b) = _ from wW (vec b), rN]
    show (readVec (vec b) >>= fun b => Outcome.ok (@Signature.rsa N b hN)) = _
    rw [readVec_vec]
    rfl

/-- **C104** (reading anything).  Whatever is presented, reading it gives a value or an error. -/
theorem C104_total [Env] (v : Value) :
    ((∃ p, readPublicKey v = .ok p) ∨ readPublicKey v = .err .invalid) ∧ ((∃ s, readSignature v = .ok s) ∨ readSignature v = .err .invalid) ∧
    ((∃ t, readTrust v = .ok t) ∨ readTrust v = .err .invalid) ∧ ((∃ r, readRelation v = .ok r) ∨ readRelation v = .err .invalid) :=
  ⟨readPublicKey_ends v, readSignature_ends v, readTrust_ends v, readRelation_ends v⟩

theorem fieldValues_perm {fields fields' : List (Str × Value)} (h : fields.Perm fields') (names : List Str) (v : List Value) :
    fieldValues fields names = .ok v → fieldValues fields' names = .ok v ∧ ∀ n ∈ names, (fields.filter (fun f => f.1 = n)).length = 1 := by
  induction names generalizing v with
  | nil => exact fun h => ⟨h, fun n hn => (List.not_mem_nil hn).elim⟩
  | cons n ns ih =>
    intro hv
    unfold fieldValues at hv ⊢
    have hp : (fields.filter (fun f => f.1 = n)).Perm (fields'.filter (fun f => f.1 = n)) := h.filter _
    rcases hl : fields.filter (fun f => f.1 = n) with _ | ⟨a, _ | ⟨b, l⟩⟩
    · unfold field at hv; rw [hl] at hv; cases hv
    · have hl' : fields'.filter (fun f => f.1 = n) = [a] := by rw [hl] at hp; exact List.perm_singleton.mp hp.symm
      unfold field at hv ⊢
      rw [hl] at hv
      rw [hl']
      cases hns : fieldValues fields ns with
      | ok vs =>
        rw [hns] at hv
        obtain ⟨h1, h2⟩ := ih vs hns
        rw [h1]
        refine ⟨hv, fun m hm => ?_⟩
        rcases List.mem_cons.mp hm with rfl | hm
        · rw [hl]; rfl
        · exact h2 m hm
      | err e => rw [hns] at hv; cases hv
      | panic => rw [hns] at hv; cases hv
      | diverge => rw [hns] at hv; cases hv
    · unfold field at hv; rw [hl] at hv; cases hv

theorem readStruct_perm {α : Type} {fields fields' : List (Str × Value)} (h : fields.Perm fields') {names : List Str} {k : List Value → Outcome Serde.Error α} {a : α}
    (hr : (readStruct names (.map fields) >>= k) = .ok a) :
    (readStruct names (.map fields') >>= k) = .ok a ∧ ∀ n ∈ names, (fields.filter (fun f => f.1 = n)).length = 1 := by
  change (fieldValues fields names >>= k) = .ok a at hr
  show (fieldValues fields' names >>= k) = .ok a ∧ _
  cases hv : fieldValues fields names with
  | ok v =>
    obtain ⟨h1, h2⟩ := fieldValues_perm h names v hv
    rw [hv] at hr
    rw [h1]
    exact ⟨hr, h2⟩
  | err e => rw [hv] at hr; cases hr
  | panic => rw [hv] at hr; cases hr
  | diverge => rw [hv] at hr; cases hr

/-- **C104** (named fields).  A record is read only if each field is there exactly once, and the order of the fields does not matter. -/
theorem C104_fields [Env] {fields fields' : List (Str × Value)} (h : fields.Perm fields') :
    (∀ t, readTrust (.map fields) = .ok t → readTrust (.map fields') = .ok t ∧
      ∀ n ∈ ["issued_for".toList, "expires_at".toList, "signature".toList, "issued_at".toList], (fields.filter (fun f => f.1 = n)).length = 1) ∧
    (∀ r, readRevocation (.map fields) = .ok r → readRevocation (.map fields') = .ok r ∧
      ∀ n ∈ ["pk".toList, "revoked_at".toList, "revoked_by".toList, "signature".toList], (fields.filter (fun f => f.1 = n)).length = 1) ∧
    ∀ a, readAuth (.map fields) = .ok a → readAuth (.map fields') = .ok a ∧
      ∀ n ∈ ["trust".toList, "issued_by".toList], (fields.filter (fun f => f.1 = n)).length = 1 :=
  ⟨fun _ ht => readStruct_perm h ht, fun _ hr => readStruct_perm h hr, fun _ ha => readStruct_perm h ha⟩

end TG

namespace TG.SerdeDemo
open TG.Toy TG.Serde

/-- JSON. -/
def json : Format := ⟨false, true, true⟩

/-- bincode. -/
def bincode : Format := ⟨false, false, false⟩

/-- A Secp256k1 key on either target. -/
def key (wasm : Bool) : @PublicKey (env wasm false).toEnv := @PublicKey.secp256k1 (env wasm false).toEnv (List.replicate 33 2) rfl rfl

/-- A trust in it, with a fraction of a second, signed by an Ed25519 key. -/
def aTrust (wasm : Bool) : @Trust (env wasm false).toEnv :=
  @Trust.mk (env wasm false).toEnv (key wasm) ⟨50, 7⟩ (@Signature.ed25519 (env wasm false).toEnv [1, 2]) (s 10)

/-- C104: the trust is read back on the other target from JSON. -/
example : ∃ t, @readTrust (env true false).toEnv (@Serde.trust (env false false).toEnv json (aTrust false)) = .ok t ∧ (aTrust false).Same t := by
  refine (C104_targets_partial (A := (env false false).toEnv) (B := (env true false).toEnv) ⟨rfl, rfl⟩ (F := json) rfl).2.2.1 (aTrust false) ⟨?_, ?_⟩
  all_goals
    intro h e
    cases e

/-- What this trust looks like in JSON: `{"issued_for":{"Secp256k1":[2,…]},"expires_at":{"secs":50,"nanos":7},"signature":{"Ed25519":[1,2]},
"issued_at":{"secs":10,"nanos":0}}`. -/
example : @Serde.trust (env false false).toEnv json (aTrust false) =
    .map [("issued_for".toList, .named "Secp256k1".toList (.seq (List.replicate 33 (.num 2)))),
      ("expires_at".toList, .map [("secs".toList, .num 50), ("nanos".toList, .num 7)]),
      ("signature".toList, .named "Ed25519".toList (.seq [.num 1, .num 2])),
      ("issued_at".toList, .map [("secs".toList, .num 10), ("nanos".toList, .num 0)])] := rfl

/-- C104: with bincode the key cannot be read, and is read as an RSA key in the opposite direction. -/
example : @readPublicKey (env true false).toEnv (@Serde.publicKey (env false false).toEnv bincode (key false)) = .err .invalid ∧
    @readPublicKey (env false false).toEnv (@Serde.publicKey (env true false).toEnv bincode (key true)) =
      .ok (@PublicKey.rsa (env false false).toEnv (List.replicate 33 2) rfl) :=
  have h := C104_targets_fails (N := (env false false).toEnv) (W := (env true false).toEnv) rfl rfl (F := bincode) rfl rfl (List.replicate 33 2) rfl
  ⟨h.1 rfl, h.2.1 rfl⟩

/-- C104: reading an Ed25519 key of 31 bytes is an error, and so is reading a duration with too many seconds. -/
example : @readPublicKey (env true false).toEnv (.named "Ed25519".toList (.bytes (List.replicate 31 1))) = .err .invalid ∧
    readDuration (.seq [.num (2 ^ 64 - 1), .num 1000000000]) = .err .invalid := ⟨rfl, rfl⟩

/-- C104: the fields of the trust in another order; and with one of them twice. -/
example : @readTrust (env false false).toEnv (.map [("issued_at".toList, .seq [.num 10, .num 0]), ("issued_for".toList, .named "Secp256k1".toList (.bytes (List.replicate 33 2))),
      ("expires_at".toList, .seq [.num 50, .num 7]), ("signature".toList, .named "Ed25519".toList (.seq [.num 1, .num 2]))]) = .ok (aTrust false) ∧
    @readTrust (env false false).toEnv (.map [("issued_at".toList, .seq [.num 10, .num 0]), ("issued_for".toList, .named "Secp256k1".toList (.bytes (List.replicate 33 2))),
      ("expires_at".toList, .seq [.num 50, .num 7]), ("signature".toList, .named "Ed25519".toList (.seq [.num 1, .num 2])), ("issued_at".toList, .seq [.num 11, .num 0])]) =
      .err .invalid := ⟨rfl, rfl⟩

end TG.SerdeDemo
