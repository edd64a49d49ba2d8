/-
Properties C15–C22: how updates and the passage of time change certificates and weights, and what `add_trust` and `add` do.
Examples and refutations are in `Props/UpdatesWitness`.
-/
import Verif.Proofs.Mono
import Verif.Props.Weights

namespace TG
variable [Env]

/-- For ordinary times `Live` means: expires at least one whole second after `now`. -/
theorem Spec.live_iff {t : Trust} {now : Dur} (h1 : now.secs.toNat < 2 ^ 63) (h2 : t.expiresAt.secs.toNat < 2 ^ 63) :
    Spec.Live t now ↔ now.secs.toNat < t.expiresAt.secs.toNat := by
  unfold Spec.Live
  rw [asI64_of_lt h1, asI64_of_lt h2]
  omega

/-- `db'` has the roots of `db`, all its edges at `now` and no new revocations. -/
def Grows (now : Dur) (db db' : Db) : Prop :=
  db.Healthy → db'.Healthy ∧ db'.roots = db.roots ∧ Spec.SnapLe (db.snapshot now) (db'.snapshot now)

theorem grows_collecting (now : Dur) : Collecting (Grows now) now where
  refl db h := ⟨h, rfl, .refl _⟩
  trans a b c h1 h2 ha := by
    obtain ⟨hb, e, hl⟩ := h1 ha
    obtain ⟨hc, e', hl'⟩ := h2 hb
    exact ⟨hc, e'.trans e, hl.trans hl'⟩
  faults db fs h := ⟨h.faults fs, rfl, .refl _⟩
  collect db h := ⟨h.collect now, rfl, by rw [Db.collect_snapshot]; exact .refl _⟩

/-- **C15**, for trusts that are live in the sense of the database (`Spec.live_iff`): whatever `add_trust` returns, afterwards
every certificate of every key still has a counterpart along the same keys, and no weight is lower.  For expiry times from 2^63 on it
fails: `C15_adding_never_lowers_fails`. -/
theorem C15_adding_never_lowers_partial {db db' : Db} {t : Trust} {by' : PublicKey} {now : Dur}
    {o : Outcome TrustGraphError Nat} (hh : db.Healthy) (hl : Spec.Live t now)
    (h : TrustGraph.addTrust t by' now db = (o, db')) (target : PublicKey) :
    (∀ cs cs' s s', TrustGraph.getAllCerts target now db = (.ok cs, s) →
      TrustGraph.getAllCerts target now db' = (.ok cs', s') →
      ∀ c ∈ cs, ∃ c' ∈ cs', c'.keys = c.keys) ∧
    (db.relations.length + 16 < 2 ^ 32 → db'.relations.length + 16 < 2 ^ 32 → ∀ w w' s s',
      TrustGraph.weight target now db = (.ok w, s) → TrustGraph.weight target now db' = (.ok w', s') → w ≤ w') := by
  have hs := TrustGraph.addTrust_steps (grows_collecting now) t by'
    (fun _ db _ hh => ⟨hh.put _, rfl, Db.put_auth_snapLe hl⟩) db
  rw [h] at hs
  obtain ⟨hh', hr, hle⟩ := hs hh
  constructor
  · intro cs cs' s s' hcs hcs' c hc
    obtain ⟨c', hc', hk⟩ := (((C02_complete_exactly_once hh hcs).2 c).mp hc).lift hle
    exact ⟨c', ((C02_complete_exactly_once hh' hcs').2 c').mpr hc', hk⟩
  · intro hn hn' w w' s s' hw hw'
    exact Db.weights_le hr (fun c hc => hc.lift hle) (weight_ok hh hn hw) (weight_ok hh' hn' hw')

/-- `db'` has the roots of `db`, no new trusts, and all its revocations. -/
def Shrinks (now : Dur) (db db' : Db) : Prop :=
  db.Healthy → db'.Healthy ∧ db'.roots = db.roots ∧
    (∀ k t, (db'.snapshot now).trusted k t → (db.snapshot now).trusted k t) ∧
    (∀ a b, (db.snapshot now).revoked a b → (db'.snapshot now).revoked a b)

theorem shrinks_quiet (now : Dur) : Quiet (Shrinks now) where
  refl db h := ⟨h, rfl, fun _ _ h => h, fun _ _ h => h⟩
  trans a b c h1 h2 ha := by
    obtain ⟨hb, e, ht, hr⟩ := h1 ha
    obtain ⟨hc, e', ht', hr'⟩ := h2 hb
    exact ⟨hc, e'.trans e, fun k t h => ht k t (ht' k t h), fun a b h => hr' a b (hr a b h)⟩
  faults db fs h := ⟨h.faults fs, rfl, fun _ _ h => h, fun _ _ h => h⟩

/-- **C16.** Whatever `revoke` returns, afterwards every certificate returned for any key was already returned before, and no weight is
higher. -/
theorem C16_revoking_never_raises {db db' : Db} {r : Revocation} {o : Outcome TrustGraphError Unit}
    (hh : db.Healthy) (h : TrustGraph.revoke r db = (o, db')) (target : PublicKey) (now : Dur) :
    (∀ cs cs' s s', TrustGraph.getAllCerts target now db = (.ok cs, s) →
      TrustGraph.getAllCerts target now db' = (.ok cs', s') → ∀ c ∈ cs', c ∈ cs) ∧
    (db.relations.length + 16 < 2 ^ 32 → db'.relations.length + 16 < 2 ^ 32 → ∀ w w' s s',
      TrustGraph.weight target now db = (.ok w, s) → TrustGraph.weight target now db' = (.ok w', s') → w' ≤ w) := by
  have hs := TrustGraph.revoke_steps (shrinks_quiet now) r
    (fun _ db _ hh => ⟨hh.put _, rfl, fun _ _ h => Db.put_revocation_trusted h,
      fun _ _ h => Db.put_revocation_revoked h⟩) db
  rw [h] at hs
  obtain ⟨hh', hr, ht, hv⟩ := hs hh
  have hroot : ∀ k, (db'.snapshot now).root k → (db.snapshot now).root k := by
    intro k hk
    unfold Db.snapshot at hk ⊢
    rw [hr] at hk
    exact hk
  constructor
  · intro cs cs' s s' hcs hcs' c hc
    exact ((C02_complete_exactly_once hh hcs).2 c).mpr
      ((((C02_complete_exactly_once hh' hcs').2 c).mp hc).mono hroot ht hv)
  · intro hn hn' w w' s s' hw hw'
    exact Db.weights_le hr.symm (fun c hc => ⟨c, hc.mono hroot ht hv, rfl⟩) (weight_ok hh' hn' hw') (weight_ok hh hn hw)

/-- **C17**, for times below 2^63 seconds: a later query (on the database as the earlier one left it, or as it was) returns
only certificates that the earlier query returned, and no higher weight.  (For later times it fails: `C17_time_never_raises_fails`.) -/
theorem C17_time_never_raises_partial {db : Db} {t1 t2 : Dur} (hh : db.Healthy) (hle : t1.total ≤ t2.total)
    (h63 : t2.secs.toNat < 2 ^ 63) (target : PublicKey) :
    (∀ cs1 cs2 s1 s2, TrustGraph.getAllCerts target t1 db = (.ok cs1, s1) →
      (TrustGraph.getAllCerts target t2 db = (.ok cs2, s2) ∨ TrustGraph.getAllCerts target t2 s1 = (.ok cs2, s2)) →
      ∀ c ∈ cs2, c ∈ cs1) ∧
    (db.relations.length + 16 < 2 ^ 32 → ∀ w1 w2 s1 s2, TrustGraph.weight target t1 db = (.ok w1, s1) →
      (TrustGraph.weight target t2 db = (.ok w2, s2) ∨ TrustGraph.weight target t2 s1 = (.ok w2, s2)) → w2 ≤ w1) := by
  have hsecs : t1.secs.toNat ≤ t2.secs.toNat := by
    have h1 := t1.nanos.isLt
    have h2 := t2.nanos.isLt
    unfold Dur.total at hle
    omega
  have hlive : ∀ t, Spec.Live t t2 → Spec.Live t t1 := by
    intro t ht
    unfold Spec.Live at ht ⊢
    rw [asI64_of_lt h63] at ht
    rw [asI64_of_lt (by omega)]
    omega
  -- after the first query the database is `db` or its collection at `t1`, up to faults
  have hst : ∀ s1 : Db, s1.Healthy → (∀ r, s1.Stored r → db.Stored r) → s1.roots = db.roots →
      (∀ r, db.Stored (.revocation r) → s1.Stored (.revocation r)) → ∀ c,
      Spec.Admissible (s1.snapshot t2) target c → Spec.Admissible (db.snapshot t1) target c := by
    intro s1 _ hstored hroots hrevs c hc
    refine hc.mono ?_ ?_ ?_
    · intro k hk
      unfold Db.snapshot at hk ⊢
      rw [hroots] at hk
      exact hk
    · intro k t ht
      exact ⟨hstored _ ht.1, hlive t ht.2⟩
    · rintro a b ⟨r, hr, h1, h2⟩
      exact ⟨r, hrevs r hr, h1, h2⟩
  have hcol : Collecting (fun a b : Db => a.Healthy → b.Healthy ∧ (∀ r, b.Stored r → a.Stored r) ∧ b.roots = a.roots ∧
      (∀ r, a.Stored (.revocation r) → b.Stored (.revocation r)) ∧ b.relations.length ≤ a.relations.length) t1 := by
    refine ⟨⟨?_, ?_, ?_⟩, ?_⟩
    · exact fun _ h => ⟨h, fun _ h => h, rfl, fun _ h => h, Nat.le_refl _⟩
    · intro a b c h1 h2 ha
      obtain ⟨hb, p1, p2, p3, p4⟩ := h1 ha
      obtain ⟨hc, q1, q2, q3, q4⟩ := h2 hb
      exact ⟨hc, fun r h => p1 r (q1 r h), q2.trans p2, fun r h => q3 r (p3 r h), le_trans q4 p4⟩
    · exact fun _ fs h => ⟨h.faults fs, fun _ h => h, rfl, fun _ h => h, Nat.le_refl _⟩
    · exact fun db h => ⟨h.collect t1, fun _ hs => ((Db.stored_collect t1).mp hs).1, rfl,
        fun _ hs => (Db.stored_collect t1).mpr ⟨hs, by simp⟩, Db.collect_length_le _ _⟩
  have hdb := hst db hh (fun _ h => h) rfl (fun _ h => h)
  constructor
  · intro cs1 cs2 s1 s2 h1 h2 c hc
    rw [(C02_complete_exactly_once hh h1).2]
    rcases h2 with h2 | h2
    · exact hdb c (((C02_complete_exactly_once hh h2).2 c).mp hc)
    · have hs := TrustGraph.getAllCerts_steps hcol target db
      rw [h1] at hs
      obtain ⟨hh1, p1, p2, p3, -⟩ := hs hh
      exact hst s1 hh1 p1 p2 p3 c (((C02_complete_exactly_once hh1 h2).2 c).mp hc)
  · intro hn w1 w2 s1 s2 h1 h2
    have g1 := weight_ok hh hn h1
    rcases h2 with h2 | h2
    · exact Db.weights_le rfl (fun c hc => ⟨c, hdb c hc, rfl⟩) (weight_ok hh hn h2) g1
    · have hs := TrustGraph.weight_steps hcol target db
      rw [h1] at hs
      obtain ⟨hh1, p1, p2, p3, p4⟩ := hs hh
      change s1.relations.length ≤ _ at p4
      have hn1 : s1.relations.length + 16 < 2 ^ 32 := by omega
      exact Db.weights_le p2.symm (fun c hc => ⟨c, hst s1 hh1 p1 p2 p3 c hc, rfl⟩) (weight_ok hh1 hn1 h2) g1


theorem PublicKey.verify_cases (pk : PublicKey) (msg : Bytes) (sig : Signature) :
    pk.verify msg sig = .ok () ∨ ∃ e, pk.verify msg sig = .err e := by
  cases pk <;> unfold PublicKey.verify <;>
    simp only [Ed25519.verify, Rsa.verify, Secp256k1.verify, Secp256k1.verifyHashed] <;>
    repeat' split
  all_goals simp

section Generic
variable {S σ : Type} [Storage S σ]

/-- **C18.** For every storage: a trust that has expired, or whose signature the issuer's key does not accept, is refused with an error and
without any effect. -/
theorem C18_invalid_trusts_refused (t : Trust) (by' : PublicKey) (now : Dur) (s : S)
    (h : t.expiresAt.total < now.total ∨
      by'.verify (Trust.signatureBytes t.issuedFor t.expiresAt t.issuedAt) t.signature ≠ .ok ()) :
    ∃ e, TrustGraph.addTrust t by' now s = (.err (.trustVerificationError e), s) := by
  have hv : t.verify by' now ≠ .ok () := by
    rw [Ne, Trust.verify_iff]
    rintro ⟨h1, h2⟩
    rcases h with h | h
    · omega
    · exact h h2
  have : ∃ e, t.verify by' now = .err e := by
    unfold Trust.verify KeyPair.verify at hv ⊢
    split
    · exact ⟨_, rfl⟩
    · rename_i hlt
      rw [if_neg hlt] at hv
      rcases by'.verify_cases (Trust.signatureBytes t.issuedFor t.expiresAt t.issuedAt) t.signature with h' | ⟨e, h'⟩
      · rw [h'] at hv; exact absurd rfl hv
      · rw [h']; exact ⟨_, rfl⟩
  obtain ⟨e, he⟩ := this
  refine ⟨e, ?_⟩
  unfold TrustGraph.addTrust
  rw [he]
  rfl

/-- **C20.** For every storage: when `add_trust` succeeds, the trust has been verified, the result is the weight of the issuer (half of it,
rounded down, unless the trust is self-signed), and the trust is handed to the storage if that number is positive; otherwise only the
query for the weight has taken place. -/
theorem C20_returned_weight {t : Trust} {by' : PublicKey} {now : Dur} {s s' : S} {w : Nat}
    (h : TrustGraph.addTrust t by' now s = (.ok w, s')) :
    t.verify by' now = .ok () ∧
    ∃ wi s1, TrustGraph.weight by' now s = (.ok wi, s1) ∧
      w = (if by' = t.issuedFor then wi else wi / 2) ∧
      (w = 0 → s' = s1) ∧
      (0 < w → Storage.updateAuth ⟨t, by'⟩ now s1 = (.ok (), s')) := by
  unfold TrustGraph.addTrust at h
  rw [M.bind_run, M.lift_run] at h
  have hv : t.verify by' now = .ok () := by
    rcases hv : t.verify by' now with _ | _ | _ | _
    · rfl
    all_goals rw [hv] at h; cases h
  refine ⟨hv, ?_⟩
  rw [hv, Outcome.mapErr_ok] at h
  dsimp only at h
  rw [M.bind_run] at h
  have hn : TrustGraph.getNextWeight by' t.issuedFor now s
      = (TrustGraph.weight by' now >>= fun w => if by' = t.issuedFor then pure w else pure (w / 2)) s := rfl
  rw [M.bind_run] at hn
  rcases hw : TrustGraph.weight by' now s with ⟨o, s1⟩
  rw [hw] at hn
  cases o with
  | ok wi =>
    have hn' : TrustGraph.getNextWeight by' t.issuedFor now s
        = (.ok (if by' = t.issuedFor then wi else wi / 2), s1) := by
      rw [hn]; dsimp only; split <;> rfl
    rw [hn'] at h
    dsimp only at h
    refine ⟨wi, s1, rfl, ?_⟩
    generalize (if by' = t.issuedFor then wi else wi / 2) = n at h ⊢
    split at h
    · rename_i h0
      cases h
      exact ⟨h0.symm, fun _ => rfl, fun h => absurd h (by omega)⟩
    · rename_i h0
      rw [M.bind_run] at h
      unfold TrustGraph.storage at h
      rw [M.mapErr_run] at h
      rcases hu : Storage.updateAuth ⟨t, by'⟩ now s1 with ⟨o, s2⟩
      rw [hu] at h
      cases o with
      | ok u => cases h; exact ⟨rfl, fun h => absurd h h0, fun _ => rfl⟩
      | err e => simp at h
      | panic => simp at h
      | diverge => simp at h
  | err e => rw [hn] at h; cases h
  | panic => rw [hn] at h; cases h
  | diverge => rw [hn] at h; cases h

/-- **C19.** For every storage: if the issuer has no weight (or weight 1 and the trust is not self-signed), a valid trust yields `Ok(0)`, and
the only effect is that of the query for the issuer's weight. -/
theorem C19_no_weight_no_trust {t : Trust} {by' : PublicKey} {now : Dur} {s s1 : S} {wi : Nat}
    (hv : t.verify by' now = .ok ()) (hw : TrustGraph.weight by' now s = (.ok wi, s1))
    (h : wi = 0 ∨ (wi = 1 ∧ by' ≠ t.issuedFor)) :
    TrustGraph.addTrust t by' now s = (.ok 0, s1) := by
  have hn : TrustGraph.getNextWeight by' t.issuedFor now s = (.ok 0, s1) := by
    unfold TrustGraph.getNextWeight
    rw [M.bind_run_ok hw]
    rcases h with rfl | ⟨rfl, hne⟩
    · split <;> rfl
    · rw [if_neg hne]; rfl
  unfold TrustGraph.addTrust
  rw [hv, Outcome.mapErr_ok, M.bind_run_ok (M.lift_run _ _), M.bind_run_ok hn]
  rfl

/-- The effect of a list of `add_trust` calls that stops at the first one that does not succeed. -/
inductive AddsInOrder (now : Dur) : List (PublicKey × Trust) → S → Outcome TrustGraphError Unit → S → Prop
  | done (s : S) : AddsInOrder now [] s (.ok ()) s
  | next {by' t rest s s' o s'' w} : TrustGraph.addTrust t by' now s = (.ok w, s') →
      AddsInOrder now rest s' o s'' → AddsInOrder now ((by', t) :: rest) s o s''
  | error {by' t rest s s' e} : TrustGraph.addTrust t by' now s = (.err e, s') →
      AddsInOrder now ((by', t) :: rest) s (.err e) s'
  | panic {by' t rest s s'} : TrustGraph.addTrust t by' now s = (.panic, s') →
      AddsInOrder now ((by', t) :: rest) s .panic s'
  | diverge {by' t rest s s'} : TrustGraph.addTrust t by' now s = (.diverge, s') →
      AddsInOrder now ((by', t) :: rest) s .diverge s'

theorem addLoop_inOrder (now : Dur) (by' : PublicKey) (ts : List Trust) (s : S) :
    AddsInOrder now ((by' :: ts.map (·.issuedFor)).zip ts) s (TrustGraph.addLoop now by' ts s).1
      (TrustGraph.addLoop now by' ts s).2 := by
  induction ts generalizing by' s with
  | nil => exact .done s
  | cons t ts ih =>
    unfold TrustGraph.addLoop
    rw [M.bind_run]
    rcases h : TrustGraph.addTrust t by' now s with ⟨o, s'⟩
    cases o with
    | ok w => exact .next h (ih _ _)
    | err e => exact .error h
    | panic => exact .panic h
    | diverge => exact .diverge h

theorem Spec.issuers_zip (t : Trust) (ts : List Trust) :
    (Spec.issuers (t :: ts)).zip (t :: ts) = (t.issuedFor :: (t :: ts).map (·.issuedFor)).zip (t :: ts) := by
  have hl : ((Spec.issuers (t :: ts)).zip (t :: ts)).length
      = ((t.issuedFor :: (t :: ts).map (·.issuedFor)).zip (t :: ts)).length := by
    simp [Spec.issuers]
  refine List.ext_getElem hl ?_
  intro i h1 h2
  rw [List.getElem_zip, List.getElem_zip]
  rcases i with _ | i
  · rfl
  · simp [Spec.issuers]

/-- **C22**, what holds, for every storage: `add(cert)` performs the `add_trust` calls of its trusts from the root outwards, each issued by
the key of the preceding trust (the first by its own), and stops at the first that fails, with that outcome; an empty chain is `EmptyChain`,
without effect.  That a failed `add` leaves the graph as it was is refuted by `C22_add_atomic_fails`. -/
theorem C22_add_in_order_partial (c : Certificate) (now : Dur) (s : S) :
    (c.chain = [] → TrustGraph.add c now s = (.err .emptyChain, s)) ∧
    (c.chain ≠ [] → AddsInOrder now ((Spec.issuers c.chain).zip c.chain) s (TrustGraph.add c now s).1
      (TrustGraph.add c now s).2) := by
  unfold TrustGraph.add
  rcases h : c.chain with _ | ⟨t, ts⟩
  · exact ⟨fun _ => rfl, fun h => absurd rfl h⟩
  · refine ⟨fun h => (nomatch h), fun _ => ?_⟩
    rw [Spec.issuers_zip]
    exact addLoop_inOrder now t.issuedFor (t :: ts) s

end Generic

/-- **C19** on the SQLite storage: when `add_trust` returns `Ok(0)` nothing is stored that was not stored before, and no root is
changed. -/
theorem C19_zero_stores_nothing {db db' : Db} {t : Trust} {by' : PublicKey} {now : Dur}
    (h : TrustGraph.addTrust t by' now db = (.ok 0, db')) :
    (∀ r, db'.Stored r → db.Stored r) ∧ db'.roots = db.roots := by
  obtain ⟨-, wi, s1, hw, -, h0, -⟩ := C20_returned_weight h
  rw [h0 rfl]
  have hc : Collecting (fun a b : Db => (∀ r, b.Stored r → a.Stored r) ∧ b.roots = a.roots) now :=
    ⟨⟨fun _ => ⟨fun _ h => h, rfl⟩, fun _ _ _ h1 h2 => ⟨fun r h => h1.1 r (h2.1 r h), h2.2.trans h1.2⟩,
      fun _ _ => ⟨fun _ h => h, rfl⟩⟩, fun _ => ⟨fun _ hs => ((Db.stored_collect now).mp hs).1, rfl⟩⟩
  have := TrustGraph.weight_steps hc by' db
  rw [hw] at this
  exact this

omit [Env] in
/-- Halving a power of two. -/
theorem pow_half {f n : Nat} : 2 ^ (16 - (f + n)) / 2 ≤ 2 ^ (16 - (f + (n + 1))) := by
  rcases Nat.lt_or_ge (f + n) 16 with h | h
  · have e : 16 - (f + n) = 16 - (f + (n + 1)) + 1 := by omega
    rw [e, Nat.pow_succ]
    omega
  · rw [show 16 - (f + n) = 0 by omega]
    simp

/-- **C21**, what holds: after `add_trust` has returned `Ok(w)`, the recipient's weight at that time is at least `w` — provided the trust is
live for the database; the issuer has not revoked the recipient since; on the certificates of the issuer nobody has revoked somebody after
them or the recipient; and an issuer that is a root has its own self-signed trust stored.  Each of these provisos is needed:
`C21_returned_weight_reached_fails` and the examples after it. -/
theorem C21_returned_weight_reached_partial {db db' db'' : Db} {t : Trust} {by' : PublicKey} {now : Dur} {w w' : Nat}
    (hh : db.Healthy) (hn : db.relations.length + 17 < 2 ^ 32) (hl : Spec.Live t now)
    (hold : ∀ r, db.Stored (.revocation r) → r.revokedBy = by' → r.pk = t.issuedFor → r.revokedAt.total < t.issuedAt.total)
    (hrev : ∀ c, Spec.Admissible (db.snapshot now) by' c → Spec.Unrevoked (db.snapshot now) c.chain ∧
      ∀ k ∈ c.keys, k ≠ by' → ¬ (db.snapshot now).revoked k t.issuedFor)
    (hself : (db.snapshot now).root by' → ∃ t0, (db.snapshot now).trusted by' t0 ∧ t0.issuedFor = by')
    (h : TrustGraph.addTrust t by' now db = (.ok w, db'))
    (h' : TrustGraph.weight t.issuedFor now db' = (.ok w', db'')) : w ≤ w' := by
  have h := (TrustGraph.addTrust_transparent t by' now).ok h
  have h' := (TrustGraph.weight_transparent t.issuedFor now).ok h'
  rcases Nat.eq_zero_or_pos w with rfl | hw0
  · exact Nat.zero_le _
  obtain ⟨hv, -⟩ := C20_returned_weight h
  obtain ⟨wi, hwi, hgi⟩ := Db.weight_spec hh.calm (Db.calm_noFaults _)
    (show db.calm.relations.length + 16 < 2 ^ 32 by change db.relations.length + 16 < _; omega) by' now
  rw [Db.addTrust_eq hh.calm (Db.calm_noFaults _) hv hwi] at h
  have hw : (if by' = t.issuedFor then wi else wi / 2) = w := Outcome.ok.inj (Prod.ext_iff.mp h).1
  have hdb := (Prod.ext_iff.mp h).2
  dsimp only at hdb
  rw [hw, if_neg (by omega)] at hdb
  -- the database before (`d`, collected) and after (`d'`)
  let d := db.calm.collect now
  have hhd : d.Healthy := hh.calm.collect now
  have hsd : d.snapshot now = db.snapshot now := Db.collect_snapshot now
  generalize hd' : db'.calm = d' at h' hdb
  have hdb : d.update (.auth ⟨t, by'⟩) = d' := hdb
  have hhd' : d'.Healthy := hdb ▸ hhd.update _
  have hroots : d'.roots = db.roots := by rw [← hdb, Db.update_roots]; rfl
  have hle : Spec.SnapLe (db.snapshot now) (d'.snapshot now) := by
    rw [← hdb, ← hsd]
    unfold Db.update
    split
    · exact Db.put_auth_snapLe hl
    · exact .refl _
  have hdstored : ∀ r, d.Stored (.revocation r) → db.Stored (.revocation r) := fun r hr =>
    ((Db.stored_collect now).mp hr).1
  have hedge : ∃ t', (d'.snapshot now).trusted by' t' ∧ t'.issuedFor = t.issuedFor := by
    rw [← hdb]
    unfold Db.update
    split
    · exact ⟨t.trunc, ⟨Db.stored_put.mpr (Or.inl rfl), hl⟩, rfl⟩
    · rename_i hnew
      rw [hhd.newer_iff] at hnew
      push Not at hnew
      obtain ⟨old, hs, h1, h2, hlt⟩ := hnew
      cases old with
      | auth a =>
        obtain ⟨ta, ka⟩ := a
        cases h2
        exact ⟨ta, ⟨hs, ((Db.stored_collect now).mp hs).2 _ rfl⟩, h1⟩
      | revocation r => exact absurd (Dur.lt_iff.mpr (hold r (hdstored r hs) h2 h1)) hlt
  have hnorev : ¬ (d'.snapshot now).revoked by' t.issuedFor := by
    rintro ⟨r, hr, h3, h4⟩
    rw [← hdb] at hr
    unfold Db.update at hr
    split at hr
    · rcases Db.stored_put.mp hr with e | ⟨hr, hne⟩
      · cases e
      · exact hne ⟨h4, h3⟩
    · rename_i hnew
      apply hnew
      rw [hhd.newer_iff]
      intro old hs h1 h2
      rw [hhd.stored_unique hs hr (h1.trans h4.symm) (h2.trans h3.symm)]
      exact Dur.lt_iff.mpr (hold r (hdstored r hr) h3 h4)
  have hlen : d'.relations.length + 16 < 2 ^ 32 := by
    have h1 : d.relations.length ≤ db.relations.length := Db.collect_length_le db.calm now
    rw [← hdb]
    unfold Db.update
    split
    · have : (d.put (.auth ⟨t, by'⟩)).relations.length ≤ d.relations.length + 1 := by
        unfold Db.put
        rw [List.length_append, List.length_singleton]
        have := List.length_filter_le (fun row => ¬ (row.issuedFor = keyText (TrustRelation.auth ⟨t, by'⟩).issuedFor ∧
          row.issuedBy = keyText (TrustRelation.auth ⟨t, by'⟩).issuedBy)) d.relations
        omega
      omega
    · omega
  have hg' := weight_ok hhd' hlen h'
  have hgi : IsGreatest (Spec.weights db by' now) wi := hgi
  by_cases hby : by' = t.issuedFor
  · rw [if_pos hby] at hw
    subst hw
    rw [← hby] at hg'
    exact Db.weights_le hroots (fun c hc => hc.lift hle) hgi hg'
  · rw [if_neg hby] at hw
    subst hw
    obtain ⟨t', ht', et'⟩ := hedge
    rcases hgi.1 with rfl | ⟨f, hf, rfl⟩ | ⟨c, hc, rfl⟩
    · omega
    · have hroot : (db.snapshot now).root by' := Db.rootFactor_isSome.mp (by rw [hf]; rfl)
      obtain ⟨t0, ht0, e0⟩ := hself hroot
      obtain ⟨t0', ht0', e0'⟩ := hle.trusted _ _ ht0
      have e : t0'.issuedFor = by' := e0'.trans e0
      have hadm := Spec.Admissible.pair (t0 := t0') (t := t') (by rw [e, et']; exact hnorev) (by rw [e]; exact hle.root _ hroot)
        (by rw [e]; exact ht0') (by rw [e]; exact ht') (by rw [e, et']; exact hby)
      rw [et'] at hadm
      refine le_trans ?_ (hg'.2 (Or.inr (Or.inr ⟨_, hadm, rfl⟩)))
      unfold Db.certWeight
      dsimp only
      rw [Db.rootFactor_congr hroots, e, hf]
      exact pow_half (n := 0)
    · obtain ⟨c', hc', hk⟩ := hc.lift hle
      have hcw := Db.certWeight_congr (db := db) (db' := d') hroots hk
      rw [← hcw]
      have hun : Spec.Unrevoked (d'.snapshot now) c'.chain := by
        have hsame : ∀ (i : Nat) a, c'.chain[i]? = some a → ∃ a', c.chain[i]? = some a' ∧ a'.issuedFor = a.issuedFor := by
          intro i a ha
          have h : c'.keys[i]? = some a.issuedFor := Spec.keys_getElem?.mpr ⟨a, ha, rfl⟩
          rw [hk] at h
          exact Spec.keys_getElem?.mp h
        intro i j a b hij ha hb hr
        obtain ⟨a', ha', ea⟩ := hsame i a ha
        obtain ⟨b', hb', eb⟩ := hsame j b hb
        refine (hrev c hc).1 i j a' b' hij ha' hb' ?_
        rw [ea, eb]
        exact hle.revoked _ _ hr
      have hrec : ∀ k ∈ c'.keys, ¬ (d'.snapshot now).revoked k t'.issuedFor := by
        intro k hkc hr
        rw [et'] at hr
        by_cases hkb : k = by'
        · rw [hkb] at hr
          exact hnorev hr
        · exact (hrev c hc).2 k (hk ▸ hkc) hkb (hle.revoked _ _ hr)
      have hlong := hc'.linked.long
      rcases hch : c'.chain with _ | ⟨t0, rest⟩
      · rw [hch] at hlong; simp at hlong
      have hr0 := (hc'.linked.root t0 (by rw [hch]; rfl)).1
      obtain ⟨f, hf⟩ := Option.isSome_iff_exists.mp (Db.rootFactor_isSome.mpr hr0)
      have hw1 : d'.certWeight c' = 2 ^ (16 - (f + rest.length)) := by
        unfold Db.certWeight; rw [hch]; simp only [hf]
      by_cases hin : t.issuedFor ∈ c'.keys
      · obtain ⟨i, hi⟩ := List.getElem?_of_mem hin
        obtain ⟨ti, hti, eti⟩ := Spec.keys_getElem?.mp hi
        have hil : i < c'.chain.length := (List.getElem?_eq_some_iff.mp hti).1
        rw [hch, List.length_cons] at hil
        refine le_trans (Nat.div_le_self _ 2) ?_
        rw [hw1]
        rcases Nat.eq_zero_or_pos i with rfl | hi1
        · rw [hch] at hti
          cases hti
          rw [← eti] at hg'
          refine le_trans ?_ (hg'.2 (Or.inr (Or.inl ⟨f, hf, rfl⟩)))
          exact Nat.pow_le_pow_right (by omega) (by omega)
        · have hadm := Spec.Admissible.take hun hc' hti hi1
          rw [eti] at hadm
          refine le_trans ?_ (hg'.2 (Or.inr (Or.inr ⟨_, hadm, rfl⟩)))
          unfold Db.certWeight
          rw [hch]
          simp only [List.take_succ_cons, hf]
          refine Nat.pow_le_pow_right (by omega) ?_
          have := List.length_take_le i rest
          have : (rest.take i).length ≤ rest.length := by rw [List.length_take]; omega
          omega
      · have hadm := Spec.Admissible.append hun hrec hc' ht' (by rw [et']; exact hin)
        rw [et'] at hadm
        refine le_trans ?_ (hg'.2 (Or.inr (Or.inr ⟨_, hadm, rfl⟩)))
        rw [hw1]
        unfold Db.certWeight
        rw [hch]
        simp only [List.cons_append, hf, List.length_append, List.length_singleton]
        exact pow_half

end TG
