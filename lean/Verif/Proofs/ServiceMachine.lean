/-
One call of the service: refused, computed, a trap, or a call of the library.
-/
import Verif.Spec.ServiceMachine
import Verif.Spec.SqlRun
import Verif.Proofs.Service
import Verif.Props.ServiceTraps

namespace TG
variable [Env]
open Service Spec

theorem extractPublicKey_names (p : Str) : (∃ k, extractPublicKey p = .ok k ∧ Names p k) ∨
    (extractPublicKey p = .err .publicKeyExtractionError ∧ PeerId.fromStr p = none) ∨
    (extractPublicKey p = .err (.publicKeyDecodeError .publicKeyNotInlined) ∧ ∃ q, PeerId.fromStr p = some q ∧ ∀ k, PublicKey.ofPeerId q ≠ .ok k) := by
  unfold extractPublicKey Names
  rcases hp : PeerId.fromStr p with _ | q
  · exact .inr (.inl ⟨rfl, rfl⟩)
  have hq : (∃ k, PublicKey.ofPeerId q = .ok k) ∨ PublicKey.ofPeerId q = .err .publicKeyNotInlined := by
    unfold PublicKey.ofPeerId
    split
    · cases PublicKey.ofProtobuf q.digest with
      | none => exact .inr rfl
      | some k => exact .inl ⟨k, rfl⟩
    · exact .inr rfl
  rcases hq with ⟨k, hk⟩ | hq
  · exact .inl ⟨k, by simp only [hk]; rfl, q, rfl, hk⟩
  · exact .inr (.inr ⟨by simp only [hq]; rfl, q, rfl, fun k hk => by rw [hq] at hk; cases hk⟩)

/-- What can be wrong with the peer ids and signatures in a record. -/
def BadRecord (peers : List Str) (sigs : List (Str × Str)) (e : DtoError) : Prop :=
  (e = .peerIdDecodeError ∧ ∃ p ∈ peers, ∀ k, ¬ Names p k) ∨
  (e = .base58Error ∧ ∃ sf ∈ sigs, Base58.decode sf.1 = none) ∨
  (e = .invalidKeyFormat .invalidKeyFormat ∧ ∃ sf ∈ sigs, ∀ k : KeyFormat, sf.2 ≠ k.toStr)

theorem BadRecord.mono {peers peers' : List Str} {sigs sigs' : List (Str × Str)} {e : DtoError} (h : BadRecord peers sigs e) (hp : peers ⊆ peers')
    (hs : sigs ⊆ sigs') : BadRecord peers' sigs' e := by
  rcases h with ⟨h, p, hm, h'⟩ | ⟨h, p, hm, h'⟩ | ⟨h, p, hm, h'⟩
  · exact .inl ⟨h, p, hp hm, h'⟩
  · exact .inr (.inl ⟨h, p, hs hm, h'⟩)
  · exact .inr (.inr ⟨h, p, hs hm, h'⟩)

theorem BadRecord.objection {cp : CallParams} {c : Call} {e : DtoError} (h : BadRecord c.recordPeers c.signatures e) : Objection cp c (.dtoError e) := by
  rcases h with ⟨rfl, p, hm, h'⟩ | ⟨rfl, p, hm, h'⟩ | ⟨rfl, p, hm, h'⟩
  · exact .recordKey hm h'
  · exact .recordSignature hm h'
  · exact .recordFormat hm h'

theorem keyOfPeerId_cases (p : Str) : (∃ k, Dto.keyOfPeerId p = .ok k ∧ Names p k) ∨
    (Dto.keyOfPeerId p = .err .peerIdDecodeError ∧ ∀ k, ¬ Names p k) := by
  unfold Dto.keyOfPeerId
  rcases extractPublicKey_names p with ⟨k, -, q, hq, hk⟩ | ⟨-, h⟩ | ⟨-, q, hq, h⟩
  · refine .inl ⟨k, ?_, q, hq, hk⟩
    simp only [hq, hk]; rfl
  · refine .inr ⟨by simp only [h], fun k hk => ?_⟩
    obtain ⟨q, hq, -⟩ := hk
    rw [h] at hq; cases hq
  · refine .inr ⟨?_, fun k hk => ?_⟩
    · simp only [hq]
      unfold PublicKey.ofPeerId at h ⊢
      split at h
      · rename_i hi
        rw [if_pos hi]
        cases hd : PublicKey.ofProtobuf q.digest with
        | none => rfl
        | some k => rw [hd] at h; exact absurd rfl (h k)
      · rename_i hi
        rw [if_neg hi]; rfl
    · obtain ⟨q', hq', hk⟩ := hk
      rw [hq] at hq'
      cases hq'
      exact h k hk

theorem keyFormat_fromStr (s : Str) : (∃ k : KeyFormat, KeyFormat.fromStr s = .ok k ∧ s = k.toStr) ∨
    (KeyFormat.fromStr s = .err .invalidKeyFormat ∧ ∀ k : KeyFormat, s ≠ k.toStr) := by
  unfold KeyFormat.fromStr
  split
  · rename_i h; exact .inl ⟨_, rfl, h⟩
  split
  · rename_i h; exact .inl ⟨_, rfl, h⟩
  split
  · rename_i h; exact .inl ⟨_, rfl, h.1⟩
  · rename_i h1 h2 h3
    refine .inr ⟨rfl, fun k => ?_⟩
    cases k with
    | ed25519 => exact h1
    | rsa h => exact fun he => h3 ⟨he, h⟩
    | secp256k1 => exact h2

theorem fromBytes_parts (k : KeyFormat) (b : Bytes) : (Signature.fromBytes k b).raw = b ∧ (Signature.fromBytes k b).sigType = k := by
  cases k <;> exact ⟨rfl, rfl⟩

theorem readSignature_cases (s f : Str) : (∃ x, Dto.readSignature s f = .ok x ∧ IsSignature s f x) ∨
    ∃ e, Dto.readSignature s f = .err e ∧ BadRecord [] [(s, f)] e := by
  unfold Dto.readSignature
  rcases hb : Base58.decode s with _ | b
  · exact .inr ⟨_, rfl, .inr (.inl ⟨rfl, _, .head _, hb⟩)⟩
  rcases keyFormat_fromStr f with ⟨k, hk, hf⟩ | ⟨hk, hf⟩
  · refine .inl ⟨Signature.fromBytes k b, by rw [hk]; rfl, ?_, ?_⟩
    · rw [(fromBytes_parts k b).1]; exact hb
    · rw [(fromBytes_parts k b).2]; exact hf
  · exact .inr ⟨_, by rw [hk]; rfl, .inr (.inr ⟨rfl, _, .head _, hf⟩)⟩

theorem toTrust_cases (d : TrustDto) : (∃ t, Dto.toTrust d = .ok t ∧ IsTrust d t) ∨
    ∃ e, Dto.toTrust d = .err e ∧ BadRecord [d.issuedFor] [(d.signature, d.sigType)] e := by
  unfold Dto.toTrust
  rcases keyOfPeerId_cases d.issuedFor with ⟨k, hk, hn⟩ | ⟨hk, hn⟩
  · rcases readSignature_cases d.signature d.sigType with ⟨x, hx, hs⟩ | ⟨e, hx, hs⟩
    · exact .inl ⟨_, by rw [hk, hx]; rfl, hn, hs, rfl, rfl⟩
    · exact .inr ⟨e, by rw [hk, hx]; rfl, hs.mono (by simp) (List.Subset.refl _)⟩
  · exact .inr ⟨_, by rw [hk]; rfl, .inl ⟨rfl, _, .head _, hn⟩⟩

theorem toRevocation_cases (d : RevocationDto) : (∃ r, Dto.toRevocation d = .ok r ∧ IsRevocation d r) ∨
    ∃ e, Dto.toRevocation d = .err e ∧ BadRecord [d.revokedPeerId, d.revokedBy] [(d.signature, d.sigType)] e := by
  unfold Dto.toRevocation
  rcases keyOfPeerId_cases d.revokedPeerId with ⟨k, hk, hn⟩ | ⟨hk, hn⟩
  · rcases keyOfPeerId_cases d.revokedBy with ⟨a, ha, hna⟩ | ⟨ha, hna⟩
    · rcases readSignature_cases d.signature d.sigType with ⟨x, hx, hs⟩ | ⟨e, hx, hs⟩
      · exact .inl ⟨_, by rw [hk, ha, hx]; rfl, hn, hna, hs, rfl⟩
      · exact .inr ⟨e, by rw [hk, ha, hx]; rfl, hs.mono (by simp) (List.Subset.refl _)⟩
    · exact .inr ⟨_, by rw [hk, ha]; rfl, .inl ⟨rfl, d.revokedBy, by simp, hna⟩⟩
  · exact .inr ⟨_, by rw [hk]; rfl, .inl ⟨rfl, _, .head _, hn⟩⟩

theorem collect_cases (ds : List TrustDto) : (∃ ts, Dto.collect Dto.toTrust ds = .ok ts ∧ List.Forall₂ IsTrust ds ts) ∨
    ∃ e, Dto.collect Dto.toTrust ds = .err e ∧ BadRecord (ds.map (·.issuedFor)) (ds.map (fun t => (t.signature, t.sigType))) e := by
  induction ds with
  | nil => exact .inl ⟨[], rfl, .nil⟩
  | cons d ds ih =>
    unfold Dto.collect
    rcases toTrust_cases d with ⟨t, ht, hi⟩ | ⟨e, ht, hb⟩
    · rcases ih with ⟨ts, hts, hf⟩ | ⟨e, hts, hb⟩
      · exact .inl ⟨t :: ts, by rw [ht, hts]; rfl, .cons hi hf⟩
      · exact .inr ⟨e, by rw [ht, hts]; rfl, hb.mono (List.subset_cons_self _ _) (List.subset_cons_self _ _)⟩
    · exact .inr ⟨e, by rw [ht]; rfl, hb.mono (by simp) (by simp)⟩

theorem toCertificate_cases (d : CertDto) : (∃ c, Dto.toCertificate d = .ok c ∧ IsCertificate d c) ∨
    ∃ e, Dto.toCertificate d = .err e ∧ BadRecord (d.chain.map (·.issuedFor)) (d.chain.map (fun t => (t.signature, t.sigType))) e := by
  unfold Dto.toCertificate
  rcases collect_cases d.chain with ⟨ts, hts, hf⟩ | ⟨e, hts, hb⟩
  · exact .inl ⟨⟨ts⟩, by rw [hts]; rfl, hf⟩
  · exact .inr ⟨e, by rw [hts]; rfl, hb⟩

/-- The record made of the answer of the library. -/
def finish {S : Type} (c : Call) : Outcome TrustGraphError Answer × S → Outcome Empty (Res Payload) × S
  | (.ok a, s) => (.ok ⟨true, none, c.present a⟩, s)
  | (.err e, s) => (.ok ⟨false, some (.tgError e), c.neutral⟩, s)
  | (.panic, s) => (.panic, s)
  | (.diverge, s) => (.diverge, s)

theorem finish_bind {S α β : Type} {x : M S TrustGraphError α} {c : Call} {f : β → Payload} {n : β} {g : α → Answer} {h : α → β} (hn : f n = c.neutral)
    (hp : ∀ a, f (h a) = c.present (g a)) (s : S) :
    record f (into n (tg x >>= fun a => pure (h a))) s = finish c ((x >>= fun a => pure (g a) : M S TrustGraphError Answer) s) := by
  unfold record tg
  rcases hx : x s with ⟨o, s'⟩
  rw [M.bind_run (x := into n _), M.bind_run (x := x)]
  unfold into
  simp only [M.bind_run, M.mapErr_run, hx]
  rcases o with a | e | _ | _
  · show (Outcome.ok (⟨true, none, f (h a)⟩ : Res Payload), s') = _
    rw [hp]; rfl
  · show (Outcome.ok (⟨false, some (.tgError e), f n⟩ : Res Payload), s') = _
    rw [hn]; rfl
  · rfl
  · rfl

theorem finish_map {S α : Type} {x : M S TrustGraphError α} {c : Call} {f : α → Payload} {n : α} {g : α → Answer} (hn : f n = c.neutral)
    (hp : ∀ a, f a = c.present (g a)) (s : S) :
    record f (into n (tg x)) s = finish c ((x >>= fun a => pure (g a) : M S TrustGraphError Answer) s) := by
  unfold record tg
  rcases hx : x s with ⟨o, s'⟩
  rw [M.bind_run (x := into n _), M.bind_run (x := x)]
  unfold into
  simp only [M.mapErr_run, hx]
  rcases o with a | e | _ | _
  · show (Outcome.ok (⟨true, none, f a⟩ : Res Payload), s') = _
    rw [hp]; rfl
  · show (Outcome.ok (⟨false, some (.tgError e), f n⟩ : Res Payload), s') = _
    rw [hn]; rfl
  · rfl
  · rfl

/-- What becomes of a call. -/
inductive Fate (S : Type) {σ : Type} [Storage S σ] (cp : CallParams) (c : Call) : Prop
  | library (op : Op) (ha : Allowed cp c) (hm : Means cp c op) (h : ∀ s : S, c.reply cp s = finish c (op.callIn s))
  | compute (p : Payload) (ha : Allowed cp c) (hp : Computes c p) (h : ∀ s : S, c.reply cp s = (.ok ⟨true, none, p⟩, s))
  | refuse (e : ServiceError) (ho : Objection cp c e) (h : ∀ s : S, c.reply cp s = (.ok ⟨false, some e, c.neutral⟩, s))
  | trap (text : Str) (t : UInt64) (hc : c = .insertCertRaw text t) (ht : Certificate.fromStr text = .panic) (h : ∀ s : S, c.reply cp s = (.panic, s))

variable {S σ : Type} [Storage S σ]

theorem Fate.peer {cp : CallParams} {c : Call} {p : Str} (hm : p ∈ c.peers cp)
    (bad : ∀ e, extractPublicKey p = .err e → ∀ s : S, c.reply cp s = (.ok ⟨false, some e, c.neutral⟩, s))
    (good : ∀ k, extractPublicKey p = .ok k → Names p k → Fate S cp c) : Fate S cp c := by
  rcases extractPublicKey_names p with ⟨k, hk, hn⟩ | ⟨he, hn⟩ | ⟨he, q, hq, hn⟩
  · exact good k hk hn
  · exact .refuse _ (.noPeerId hm hn) (bad _ he)
  · exact .refuse _ (.noKey hm hq hn) (bad _ he)

theorem Fate.clock {cp : CallParams} {c : Call} {n : Nat} (hm : c.clockArg = some n)
    (bad : checkTimestampTetraplets cp n = .err .invalidTimestampTetraplet →
      ∀ s : S, c.reply cp s = (.ok ⟨false, some .invalidTimestampTetraplet, c.neutral⟩, s))
    (good : checkTimestampTetraplets cp n = .ok () → (∀ m, c.clockArg = some m → cp.FromHostClock m) → Fate S cp c) : Fate S cp c := by
  by_cases h : cp.FromHostClock n
  · refine good ((checkTimestamp_iff cp n).mpr h) fun m hm' => ?_
    rw [hm] at hm'
    cases hm'
    exact h
  · exact .refuse _ (.clock hm h) (bad (checkTimestamp_err h))

omit [Env] in
theorem allowed_of_clock {cp : CallParams} {c : Call} (h : ∀ m, c.clockArg = some m → cp.FromHostClock m) (h1 : ∀ p n, c ≠ .setRoot p n)
    (h2 : ∀ d i t, c ≠ .addTrust d i t) (h3 : ∀ d t, c ≠ .revoke d t) : Allowed cp c :=
  ⟨fun p n e => absurd e (h1 p n), h, fun d i t e => absurd e (h2 d i t), fun d t e => absurd e (h3 d t)⟩

theorem Call.fate (cp : CallParams) (c : Call) : Fate S cp c := by
  have free : ∀ {c : Call}, c.clockArg = none → (∀ p n, c ≠ .setRoot p n) → (∀ d i t, c ≠ .addTrust d i t) → (∀ d t, c ≠ .revoke d t) → Allowed cp c :=
    fun h => allowed_of_clock fun m hm => by rw [h] at hm; cases hm
  cases c with
  | setRoot p n =>
    by_cases ho : cp.serviceCreatorPeerId = cp.initPeerId
    · have e : ∀ s : S, (Call.setRoot p n).reply cp s = record (fun _ => .unit) (into () (do
          let pk ← M.lift (extractPublicKey p)
          tg (TrustGraph.setRoot pk n.toNat))) s := by
        intro s
        show record (fun _ => Payload.unit) (Service.setRoot cp p n) s = _
        unfold Service.setRoot
        rw [if_pos ho]
      refine .peer (.head _) (fun e' he s => ?_) fun k hk hn => .library (.setRoot k n.toNat) ⟨fun _ _ _ => ho.symm, (fun m hm => by cases hm), by simp, by simp⟩ (.setRoot hn) fun s => ?_
      · rw [e, he]; rfl
      · rw [e, hk]
        exact finish_map (by rfl) (fun _ => by rfl) s
    · refine .refuse _ (.owner (Ne.symm ho)) fun s => ?_
      show record (fun _ => Payload.unit) (Service.setRoot cp p n) s = _
      unfold Service.setRoot
      rw [if_neg ho]; rfl
  | insertCertRaw text t =>
    have e : ∀ s : S, (Call.insertCertRaw text t).reply cp s = record (fun _ => .unit) (Service.insertCertRaw cp text t) s := fun _ => rfl
    unfold Service.insertCertRaw at e
    cases ht : Certificate.fromStr text with
    | ok c =>
      refine .library (.add c (.ofSecs t)) (free rfl (by simp) (by simp) (by simp)) (.insertCertRaw ht) fun s => ?_
      rw [e, ht]
      exact finish_map (by rfl) (fun _ => by rfl) s
    | err e' => exact .refuse _ (.text ht) fun s => by rw [e, ht]; rfl
    | panic => exact .trap text t rfl ht fun s => by rw [e, ht]; rfl
    | diverge => exact absurd ht (Certificate.fromStr_ne_diverge text)
  | insertCert d t =>
    have e : ∀ s : S, (Call.insertCert d t).reply cp s = record (fun _ => .unit) (Service.insertCert cp d t) s := fun _ => rfl
    unfold Service.insertCert at e
    rcases toCertificate_cases d with ⟨c, hc, hi⟩ | ⟨e', hc, hb⟩
    · refine .library (.add c (.ofSecs t)) (free rfl (by simp) (by simp) (by simp)) (.insertCert hi) fun s => ?_
      rw [e, hc]
      exact finish_map (by rfl) (fun _ => by rfl) s
    · exact .refuse _ (BadRecord.objection hb) fun s => by rw [e, hc]; rfl
  | getAllCerts p t =>
    have e : ∀ s : S, (Call.getAllCerts p t).reply cp s = record .certs (Service.getAllCerts cp p t) s := fun _ => rfl
    unfold Service.getAllCerts getCerts at e
    refine .clock (n := 1) rfl (fun h s => by rw [e, h]; rfl) fun h ha => .peer (.head _) (fun e' he s => by rw [e, h, he]; rfl) fun k hk hn =>
      .library (.getAllCerts k (.ofSecs t)) (allowed_of_clock ha (by simp) (by simp) (by simp)) (.getAllCerts hn) fun s => ?_
    rw [e, h, hk]
    exact finish_bind (by rfl) (fun _ => by rfl) s
  | getAllCertsFrom p i t =>
    have e : ∀ s : S, (Call.getAllCertsFrom p i t).reply cp s = record .certs (Service.getAllCertsFrom cp p i t) s := fun _ => rfl
    unfold Service.getAllCertsFrom getCertsFrom at e
    refine .clock (n := 2) rfl (fun h s => by rw [e, h]; rfl) fun h ha => .peer (.head _) (fun e' he s => by rw [e, h, he]; rfl) fun k hk hn =>
      .peer (p := i) (by simp [Call.peers]) (fun e' he s => by rw [e, h, hk, he]; rfl) fun a hka hna =>
      .library (.getAllCertsFrom k a (.ofSecs t)) (allowed_of_clock ha (by simp) (by simp) (by simp)) (.getAllCertsFrom hn hna) fun s => ?_
    rw [e, h, hk, hka]
    exact finish_bind (by rfl) (fun _ => by rfl) s
  | getHostCerts t =>
    have e : ∀ s : S, (Call.getHostCerts t).reply cp s = record .certs (Service.getHostCerts cp t) s := fun _ => rfl
    unfold Service.getHostCerts getCerts at e
    refine .clock (n := 0) rfl (fun h s => by rw [e, h]; rfl) fun h ha => .peer (.head _) (fun e' he s => by rw [e, h, he]; rfl) fun k hk hn =>
      .library (.getAllCerts k (.ofSecs t)) (allowed_of_clock ha (by simp) (by simp) (by simp)) (.getHostCerts hn) fun s => ?_
    rw [e, h, hk]
    exact finish_bind (by rfl) (fun _ => by rfl) s
  | getHostCertsFrom i t =>
    have e : ∀ s : S, (Call.getHostCertsFrom i t).reply cp s = record .certs (Service.getHostCertsFrom cp i t) s := fun _ => rfl
    unfold Service.getHostCertsFrom getCertsFrom at e
    refine .clock (n := 1) rfl (fun h s => by rw [e, h]; rfl) fun h ha => .peer (.head _) (fun e' he s => by rw [e, h, he]; rfl) fun k hk hn =>
      .peer (p := i) (by simp [Call.peers]) (fun e' he s => by rw [e, h, hk, he]; rfl) fun a hka hna =>
      .library (.getAllCertsFrom k a (.ofSecs t)) (allowed_of_clock ha (by simp) (by simp) (by simp)) (.getHostCertsFrom hn hna) fun s => ?_
    rw [e, h, hk, hka]
    exact finish_bind (by rfl) (fun _ => by rfl) s
  | getWeight p t =>
    have e : ∀ s : S, (Call.getWeight p t).reply cp s = record (fun a => .weight a.1 a.2) (Service.getWeight cp p t) s := fun _ => rfl
    unfold Service.getWeight at e
    refine .clock (n := 1) rfl (fun h s => by rw [e, h]; rfl) fun h ha => .peer (.head _) (fun e' he s => by rw [e, h, he]; rfl) fun k hk hn =>
      .library (.weight k (.ofSecs t)) (allowed_of_clock ha (by simp) (by simp) (by simp)) (.getWeight hn) fun s => ?_
    rw [e, h, hk]
    exact finish_bind (by rfl) (fun _ => by rfl) s
  | getWeightFrom p i t =>
    have e : ∀ s : S, (Call.getWeightFrom p i t).reply cp s = record (fun a => .weight a.1 a.2) (Service.getWeightFrom cp p i t) s := fun _ => rfl
    unfold Service.getWeightFrom at e
    refine .clock (n := 1) rfl (fun h s => by rw [e, h]; rfl) fun h ha => .peer (.head _) (fun e' he s => by rw [e, h, he]; rfl) fun k hk hn =>
      .peer (p := i) (by simp [Call.peers]) (fun e' he s => by rw [e, h, hk, he]; rfl) fun a hka hna =>
      .library (.weightFrom k a (.ofSecs t)) (allowed_of_clock ha (by simp) (by simp) (by simp)) (.getWeightFrom hn hna) fun s => ?_
    rw [e, h, hk, hka]
    exact finish_bind (by rfl) (fun _ => by rfl) s
  | getTrustBytes p x i =>
    have e : ∀ s : S, (Call.getTrustBytes p x i).reply cp s = record .bytes (Service.getTrustBytes cp p x i) s := fun _ => rfl
    unfold Service.getTrustBytes at e
    refine .peer (.head _) (fun e' he s => by rw [e, he]; rfl) fun k hk hn =>
      .compute _ (free rfl (by simp) (by simp) (by simp)) (.getTrustBytes hn) fun s => by rw [e, hk]; rfl
  | issueTrust p x i b =>
    have e : ∀ s : S, (Call.issueTrust p x i b).reply cp s = record .trust (Service.issueTrust cp p x i b) s := fun _ => rfl
    unfold Service.issueTrust at e
    refine .peer (.head _) (fun e' he s => by rw [e, he]; rfl) fun k hk hn =>
      .compute _ (free rfl (by simp) (by simp) (by simp)) (.issueTrust hn) fun s => by rw [e, hk]; rfl
  | verifyTrust d i t =>
    have e : ∀ s : S, (Call.verifyTrust d i t).reply cp s = record (fun _ => .unit) (Service.verifyTrust cp d i t) s := fun _ => rfl
    unfold Service.verifyTrust at e
    refine .clock (n := 2) rfl (fun h s => by rw [e, h]; rfl) fun h ha => .peer (.head _) (fun e' he s => by rw [e, h, he]; rfl) fun k hk hn => ?_
    have verdict : ∀ {x : Trust} {o : Outcome TrustError Unit}, x.verify k (.ofSecs t) = o → ∀ {s : S},
        record (fun _ => Payload.unit) (into () (do
          M.lift (.ok ())
          let pk ← M.lift (.ok k)
          let t' ← M.lift ((Outcome.ok x).mapErr .dtoError)
          M.lift ((t'.verify pk (.ofSecs t)).mapErr .trustError))) s = record (fun _ => Payload.unit) (into () (M.lift (o.mapErr .trustError))) s := by
      intro x o h s
      rw [← h]; rfl
    rcases toTrust_cases d with ⟨x, hx, hi⟩ | ⟨e', hx, hb⟩
    · rcases Trust.verify_cases x k (.ofSecs t) with hv | ⟨e', hv⟩
      · exact .compute _ (allowed_of_clock ha (by simp) (by simp) (by simp)) (.verifyTrust hi hn hv) fun s => by rw [e, h, hk, hx]; exact verdict hv
      · exact .refuse _ (.wrong hi hn hv) fun s => by rw [e, h, hk, hx]; exact verdict hv
    · exact .refuse _ (BadRecord.objection hb) fun s => by rw [e, h, hk, hx]; rfl
  | addTrust d i t =>
    have e : ∀ s : S, (Call.addTrust d i t).reply cp s = record .newWeight (Service.addTrust cp d i t) s := fun _ => rfl
    unfold Service.addTrust at e
    refine .peer (.head _) (fun e' he s => by rw [e, he]; rfl) fun k hk hn => .clock (n := 2) rfl (fun h s => by rw [e, hk, h]; rfl) fun h ha => ?_
    by_cases hl : d.issuedAt.toNat > t.toNat
    · exact .refuse _ (.futureTrust (UInt64.lt_iff_toNat_lt.mpr hl)) fun s => by rw [e, hk, h]; simp only [if_pos hl]; rfl
    · have hle : d.issuedAt ≤ t := UInt64.le_iff_toNat_le.mpr (by omega)
      rcases toTrust_cases d with ⟨x, hx, hi⟩ | ⟨e', hx, hb⟩
      · refine .library (.addTrust x k (.ofSecs t)) ⟨by simp, ha, fun _ _ _ e => ?_, by simp⟩ (.addTrust hi hn) fun s => ?_
        · cases e; exact hle
        · rw [e, hk, h, hx]
          simp only [if_neg hl]
          exact finish_map (by rfl) (fun _ => by rfl) s
      · exact .refuse _ (BadRecord.objection hb) fun s => by rw [e, hk, h, hx]; simp only [if_neg hl]; rfl
  | getRevocationBytes p r =>
    have e : ∀ s : S, (Call.getRevocationBytes p r).reply cp s = record .bytes (Service.getRevocationBytes cp p r) s := fun _ => rfl
    unfold Service.getRevocationBytes at e
    refine .peer (.head _) (fun e' he s => by rw [e, he]; rfl) fun k hk hn =>
      .compute _ (free rfl (by simp) (by simp) (by simp)) (.getRevocationBytes hn) fun s => by rw [e, hk]; rfl
  | issueRevocation b p r x =>
    have e : ∀ s : S, (Call.issueRevocation b p r x).reply cp s = record .revocation (Service.issueRevocation cp b p r x) s := fun _ => rfl
    unfold Service.issueRevocation at e
    refine .peer (p := p) (by simp [Call.peers]) (fun e' he s => by rw [e, he]; rfl) fun k hk hn =>
      .peer (p := b) (.head _) (fun e' he s => by rw [e, hk, he]; rfl) fun a hka hna =>
      .compute _ (free rfl (by simp) (by simp) (by simp)) (.issueRevocation hna hn) fun s => by rw [e, hk, hka]; rfl
  | revoke d t =>
    have e : ∀ s : S, (Call.revoke d t).reply cp s = record (fun _ => .unit) (Service.revoke cp d t) s := fun _ => rfl
    unfold Service.revoke at e
    refine .clock (n := 1) rfl (fun h s => by rw [e, h]; rfl) fun h ha => ?_
    by_cases hl : d.revokedAt.toNat > t.toNat
    · exact .refuse _ (.futureRevocation (UInt64.lt_iff_toNat_lt.mpr hl)) fun s => by rw [e, h, if_pos hl]; rfl
    · have hle : d.revokedAt ≤ t := UInt64.le_iff_toNat_le.mpr (by omega)
      rcases toRevocation_cases d with ⟨x, hx, hi⟩ | ⟨e', hx, hb⟩
      · refine .library (.revoke x) ⟨by simp, ha, by simp, fun _ _ e => ?_⟩ (.revoke hi) fun s => ?_
        · cases e; exact hle
        · rw [e, h, if_neg hl, hx]
          exact finish_map (by rfl) (fun _ => by rfl) s
      · exact .refuse _ (BadRecord.objection hb) fun s => by rw [e, h, if_neg hl, hx]; rfl
  | exportRevocations p =>
    have e : ∀ s : S, (Call.exportRevocations p).reply cp s = record .revocations (Service.exportRevocations cp p) s := fun _ => rfl
    unfold Service.exportRevocations at e
    refine .peer (.head _) (fun e' he s => by rw [e, he]; rfl) fun k hk hn =>
      .library (.getRevocations k) (free rfl (by simp) (by simp) (by simp)) (.exportRevocations hn) fun s => ?_
    rw [e, hk]
    exact finish_bind (by rfl) (fun _ => by rfl) s

end TG
