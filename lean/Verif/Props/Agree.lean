/-
C136: services that were told the same say the same.
-/
import Verif.Props.ServiceMachine
import Verif.Props.Order

namespace TG
variable [Env]
open Spec SqlStorage

/-- The trusts for which a weight other than 0 was returned, and the revocations that were taken, in a run of the service. -/
inductive Spec.Took (tr : List Event) : TrustRelation → Prop
  | trust {cp d i t r x a} : .call cp (.addTrust d i t) (.ok r) ∈ tr → r.success = true → r.payload ≠ .newWeight 0 → IsTrust d x → Names i a → Took tr (.auth ⟨x, a⟩)
  | revocation {cp d t r x} : .call cp (.revoke d t) (.ok r) ∈ tr → r.success = true → IsRevocation d x → Took tr (.revocation x)

/-- The service was told that the key is a root with the maximum chain length. -/
def Spec.TookRoot (tr : List Event) (k : PublicKey) (n : Nat) : Prop :=
  ∃ cp p m r, .call cp (.setRoot p m) (.ok r) ∈ tr ∧ r.success = true ∧ Names p k ∧ n = m.toNat

/-- A call of the run is about the time. -/
def Spec.AsOf (tr : List Event) (now : Dur) : Prop := ∃ cp c o op, Event.call cp c o ∈ tr ∧ Means cp c op ∧ op.time = some now

/-- The run does not take in whole certificates. -/
def Spec.NoCertificates (tr : List Event) : Prop := ∀ cp c o, .call cp c o ∈ tr → (∀ d t, c ≠ .insertCert d t) ∧ ∀ s t, c ≠ .insertCertRaw s t

theorem Spec.Took.mono {tr tr' : List Event} (h : ∀ e ∈ tr, e ∈ tr') {m : TrustRelation} (hm : Took tr m) : Took tr' m := by
  cases hm with
  | trust h1 h2 h3 h4 h5 => exact .trust (h _ h1) h2 h3 h4 h5
  | revocation h1 h2 h3 => exact .revocation (h _ h1) h2 h3

theorem Spec.took_append {tr : List Event} {e : Event} {m : TrustRelation} : Took (tr ++ [e]) m ↔ Took tr m ∨ Took [e] m := by
  constructor
  · intro h
    cases h with
    | trust h1 h2 h3 h4 h5 => exact (List.mem_append.mp h1).imp (fun h1 => .trust h1 h2 h3 h4 h5) fun h1 => .trust h1 h2 h3 h4 h5
    | revocation h1 h2 h3 => exact (List.mem_append.mp h1).imp (fun h1 => .revocation h1 h2 h3) fun h1 => .revocation h1 h2 h3
  · rintro (h | h)
    · exact h.mono fun e he => List.mem_append_left _ he
    · exact h.mono fun e he => List.mem_append_right _ he

theorem Spec.tookRoot_append {tr : List Event} {e : Event} {k : PublicKey} {n : Nat} : TookRoot (tr ++ [e]) k n ↔ TookRoot tr k n ∨ TookRoot [e] k n := by
  constructor
  · rintro ⟨cp, p, m, r, h, h'⟩
    exact (List.mem_append.mp h).imp (fun h => ⟨cp, p, m, r, h, h'⟩) fun h => ⟨cp, p, m, r, h, h'⟩
  · rintro (⟨cp, p, m, r, h, h'⟩ | ⟨cp, p, m, r, h, h'⟩)
    · exact ⟨cp, p, m, r, List.mem_append_left _ h, h'⟩
    · exact ⟨cp, p, m, r, List.mem_append_right _ h, h'⟩

/-- The state of the reference machine after what the run has taken in. -/
structure Spec.Holds (tr : List Event) (w : World) : Prop where
  absorbs : World.Absorbs (Took tr) ⟨w.roots, fun _ _ => none⟩ w
  sound : ∀ k n, w.roots k = some n → ∃ m, TookRoot tr k m ∧ n = min m 16
  complete : ∀ k m, TookRoot tr k m → (w.roots k).isSome

theorem Spec.Holds.keep {tr : List Event} {w : World} (h : Holds tr w) {e : Event} (h1 : ∀ m, ¬ Took [e] m) (h2 : ∀ k n, ¬ TookRoot [e] k n) : Holds (tr ++ [e]) w where
  absorbs := h.absorbs.congr fun m => by rw [took_append]; exact ⟨.inl, fun h => h.resolve_right (h1 m)⟩
  sound k n hk := by
    obtain ⟨m, hm, e⟩ := h.sound k n hk
    exact ⟨m, tookRoot_append.mpr (.inl hm), e⟩
  complete k m hk := h.complete k m ((tookRoot_append.mp hk).resolve_right (h2 k m))

theorem Spec.Holds.update {tr : List Event} {w : World} (h : Holds tr w) {e : Event} {m : TrustRelation} (h1 : ∀ q, Took [e] q ↔ q = m) (h2 : ∀ k n, ¬ TookRoot [e] k n)
    (hd : ∀ q, Took tr q → q.SamePair m → q.issuedAt.secs = m.issuedAt.secs → q = m) : Holds (tr ++ [e]) (w.update m) where
  absorbs := (h.absorbs.update hd).congr fun q => by rw [took_append, h1]
  sound k n hk := by
    obtain ⟨m, hm, e⟩ := h.sound k n hk
    exact ⟨m, tookRoot_append.mpr (.inl hm), e⟩
  complete k m hk := h.complete k m ((tookRoot_append.mp hk).resolve_right (h2 k m))

/-- Events in which nothing is taken in. -/
theorem Spec.not_took_start (b : Bool) : (∀ m, ¬ Took [.start b] m) ∧ ∀ k n, ¬ TookRoot [.start b] k n := by
  refine ⟨fun m h => ?_, ?_⟩
  · cases h with
    | trust h => simp at h
    | revocation h => simp at h
  · rintro k n ⟨cp, p, m, r, h, -⟩
    simp at h

theorem Spec.not_took_panic (cp : CallParams) (c : Call) : (∀ m, ¬ Took [.call cp c .panic] m) ∧ ∀ k n, ¬ TookRoot [.call cp c .panic] k n := by
  refine ⟨fun m h => ?_, ?_⟩
  · cases h with
    | trust h => simp at h
    | revocation h => simp at h
  · rintro k n ⟨cp, p, m, r, h, -⟩
    simp at h

theorem Spec.not_took_failed {cp : CallParams} {c : Call} {r : Res Payload} (hr : r.success = false) :
    (∀ m, ¬ Took [.call cp c (.ok r)] m) ∧ ∀ k n, ¬ TookRoot [.call cp c (.ok r)] k n := by
  refine ⟨fun m h => ?_, ?_⟩
  · cases h with
    | trust h h2 =>
      cases List.mem_singleton.mp h
      rw [hr] at h2; cases h2
    | revocation h h2 =>
      cases List.mem_singleton.mp h
      rw [hr] at h2; cases h2
  · rintro k n ⟨cp, p, m, r, h, h2, -⟩
    cases List.mem_singleton.mp h
    rw [hr] at h2; cases h2

theorem Spec.not_took_other {cp : CallParams} {c : Call} {r : Res Payload} (h1 : ∀ d i t, c = .addTrust d i t → r.payload = .newWeight 0) (h2 : ∀ d t, c ≠ .revoke d t)
    (h3 : ∀ p n, c ≠ .setRoot p n) : (∀ m, ¬ Took [.call cp c (.ok r)] m) ∧ ∀ k n, ¬ TookRoot [.call cp c (.ok r)] k n := by
  refine ⟨fun m h => ?_, ?_⟩
  · cases h with
    | trust h _ hp =>
      cases List.mem_singleton.mp h
      exact hp (h1 _ _ _ rfl)
    | revocation h =>
      cases List.mem_singleton.mp h
      exact h2 _ _ rfl
  · rintro k n ⟨cp, p, m, r, h, -⟩
    cases List.mem_singleton.mp h
    exact h3 _ _ rfl

/-- What the machine holds after a run. -/
theorem Spec.Serves.holds {faulty : Prop} {tr : List Event} {w : World} {s : Status} (h : Serves faulty tr w s) (hc : NoCertificates tr)
    (hd : ∀ q m, Took tr q → Took tr m → q.SamePair m → q.issuedAt.secs = m.issuedAt.secs → q = m)
    (hl : ∀ now, AsOf tr now → ∀ a, Took tr (.auth a) → Live a.trust now) : Holds tr w := by
  induction h with
  | new =>
    refine ⟨(World.Absorbs.refl World.empty).congr fun m => ⟨False.elim, fun h => ?_⟩, fun k n h => (by cases h), ?_⟩
    · cases h with
      | trust h => cases h
      | revocation h => cases h
    · rintro k m ⟨_, _, _, _, h, -⟩
      cases h
  | start _ ih =>
    exact (ih (fun cp c o h => hc cp c o (List.mem_append_left _ h)) (fun q m hq hm => hd q m (took_append.mpr (.inl hq)) (took_append.mpr (.inl hm)))
      (fun now ⟨cp, c, o, op, h, h'⟩ a ha => hl now ⟨cp, c, o, op, List.mem_append_left _ h, h'⟩ a (took_append.mpr (.inl ha)))).keep (not_took_start _).1 (not_took_start _).2
  | noStart _ _ ih =>
    exact (ih (fun cp c o h => hc cp c o (List.mem_append_left _ h)) (fun q m hq hm => hd q m (took_append.mpr (.inl hq)) (took_append.mpr (.inl hm)))
      (fun now ⟨cp, c, o, op, h, h'⟩ a ha => hl now ⟨cp, c, o, op, List.mem_append_left _ h, h'⟩ a (took_append.mpr (.inl ha)))).keep (not_took_start _).1 (not_took_start _).2
  | @call tr w cp c r w' h0 hs ih =>
    have hh := ih (fun cp c o h => hc cp c o (List.mem_append_left _ h)) (fun q m hq hm => hd q m (took_append.mpr (.inl hq)) (took_append.mpr (.inl hm)))
      (fun now ⟨cp, c, o, op, h, h'⟩ a ha => hl now ⟨cp, c, o, op, List.mem_append_left _ h, h'⟩ a (took_append.mpr (.inl ha)))
    have hcol : ∀ {op now}, Means cp c op → op.time = some now → w.collect now = w := fun {op now} hm ht => World.collect_live fun a b q hq => by
      rcases hh.absorbs.pairs a b with ⟨e, -⟩ | ⟨m, hm', -, -, e, -⟩
      · rw [hq] at e; cases e
      · rw [hq] at e
        cases e
        refine TrustRelation.trunc_live.mp fun x hx => ?_
        subst hx
        exact hl now ⟨cp, c, _, op, List.mem_append_right _ (.head _), hm, ht⟩ x (took_append.mpr (.inl hm'))
    obtain ⟨hc1, hc2⟩ := hc cp c _ (List.mem_append_right _ (.head _))
    cases hs with
    | @answer op a _ ha hm hst =>
      have hq : ∀ {now}, op.time = some now → w' = w.collect now → (∀ d i t, c = .addTrust d i t → c.present a = .newWeight 0) → (∀ d t, c ≠ .revoke d t) →
          (∀ p n, c ≠ .setRoot p n) → Holds (tr ++ [.call cp c (.ok ⟨true, none, c.present a⟩)]) w' := by
        intro now ht e h1 h2 h3
        rw [e, hcol hm ht]
        have := not_took_other (cp := cp) (c := c) (r := ⟨true, none, c.present a⟩) h1 h2 h3
        exact hh.keep this.1 this.2
      cases hm with
      | insertCertRaw => exact absurd rfl (hc2 _ _)
      | insertCert => exact absurd rfl (hc1 _ _)
      | @setRoot p n k hk =>
        cases hst
        have hno : ∀ m, ¬ Took [.call cp (.setRoot p n) (.ok ⟨true, none, (Call.setRoot p n).present .unit⟩)] m := by
          intro m h
          cases h with
          | trust h => simp at h
          | revocation h => simp at h
        have hsr : ∀ a, (w.setRoot k n.toNat).roots a = if a = k ∧ w.roots a = none then some (min n.toNat 16) else w.roots a := fun a => by unfold World.setRoot; rfl
        have hme : TookRoot [.call cp (.setRoot p n) (.ok ⟨true, none, (Call.setRoot p n).present .unit⟩)] k n.toNat := ⟨_, _, _, _, .head _, rfl, hk, rfl⟩
        refine ⟨⟨rfl, fun a b => ?_⟩, ?_, ?_⟩
        · have h1 := hh.absorbs.pairs a b
          rw [show (w.setRoot k n.toNat).relation = w.relation by unfold World.setRoot; rfl]
          have e : Took (tr ++ [.call cp (.setRoot p n) (.ok ⟨true, none, (Call.setRoot p n).present .unit⟩)]) = Took tr := funext fun m => propext
            (took_append.trans ⟨fun h => h.resolve_right (hno m), .inl⟩)
          rw [e]
          exact h1
        · intro a x hx
          rw [hsr] at hx
          split at hx
          · next h => exact ⟨n.toNat, tookRoot_append.mpr (.inr (h.1 ▸ hme)), (Option.some.inj hx).symm⟩
          · obtain ⟨m, h1, h2⟩ := hh.sound a x hx
            exact ⟨m, tookRoot_append.mpr (.inl h1), h2⟩
        · intro a m h
          rw [hsr]
          split
          · rfl
          · next hn =>
            rcases tookRoot_append.mp h with h | ⟨cp', p', m', r', h, -, hk', -⟩
            · exact hh.complete a m h
            · cases List.mem_singleton.mp h
              cases hk'.unique hk
              exact Option.isSome_iff_ne_none.mpr fun e => hn ⟨rfl, e⟩
      | addTrust hx hk =>
        cases hst with
        | addTrust hadd =>
          obtain ⟨hv, x, -, -, rfl⟩ := hadd
          split
          · next h0 =>
            subst h0
            have := hq rfl (if_pos rfl) (fun _ _ _ _ => rfl) (by simp) (by simp)
            rwa [if_pos rfl] at this
          · next h0 =>
            rw [hcol (.addTrust hx hk) rfl]
            refine hh.update (fun q => ⟨fun h => ?_, ?_⟩) ?_ fun q hq => hd q _ (took_append.mpr (.inl hq)) (took_append.mpr (.inr ?_))
            · cases h with
              | trust h _ _ h4 h5 =>
                cases List.mem_singleton.mp h
                rw [h4.unique hx, h5.unique hk]
              | revocation h => simp at h
            · rintro rfl
              exact .trust (.head _) rfl (fun e => h0 (Payload.newWeight.inj e)) hx hk
            · rintro k n ⟨cp, p, m, r, h, -⟩
              simp at h
            · exact .trust (.head _) rfl (fun e => h0 (Payload.newWeight.inj e)) hx hk
      | revoke hx =>
        cases hst
        refine hh.update (fun q => ⟨fun h => ?_, ?_⟩) ?_ fun q hq => hd q _ (took_append.mpr (.inl hq)) (took_append.mpr (.inr ?_))
        · cases h with
          | trust h => simp at h
          | revocation h _ h3 =>
            cases List.mem_singleton.mp h
            rw [h3.unique hx]
        · rintro rfl
          exact .revocation (.head _) rfl hx
        · rintro k n ⟨cp, p, m, r, h, -⟩
          simp at h
        · exact .revocation (.head _) rfl hx
      | getAllCerts => cases hst; exact hq rfl rfl (by simp) (by simp) (by simp)
      | getAllCertsFrom => cases hst; exact hq rfl rfl (by simp) (by simp) (by simp)
      | getHostCerts => cases hst; exact hq rfl rfl (by simp) (by simp) (by simp)
      | getHostCertsFrom => cases hst; exact hq rfl rfl (by simp) (by simp) (by simp)
      | getWeight => cases hst; exact hq rfl rfl (by simp) (by simp) (by simp)
      | getWeightFrom => cases hst; exact hq rfl rfl (by simp) (by simp) (by simp)
      | exportRevocations =>
        cases hst
        exact hh.keep (not_took_other (by simp) (by simp) (by simp)).1 (not_took_other (by simp) (by simp) (by simp)).2
    | decline ha hm hst =>
      cases hst with
      | refuseTrust => exact hh.keep (not_took_failed rfl).1 (not_took_failed rfl).2
      | refuseRevocation => exact hh.keep (not_took_failed rfl).1 (not_took_failed rfl).2
      | addEmpty => exact hh.keep (not_took_failed rfl).1 (not_took_failed rfl).2
      | add =>
        cases hm with
        | insertCertRaw => exact absurd rfl (hc2 _ _)
        | insertCert => exact absurd rfl (hc1 _ _)
    | compute ha hp =>
      have h1 : ∀ d i t, c ≠ .addTrust d i t := by rintro _ _ _ rfl; cases hp
      have h2 : ∀ d t, c ≠ .revoke d t := by rintro _ _ rfl; cases hp
      have h3 : ∀ p n, c ≠ .setRoot p n := by rintro _ _ rfl; cases hp
      exact hh.keep (not_took_other (fun d i t e => absurd e (h1 d i t)) h2 h3).1 (not_took_other (fun d i t e => absurd e (h1 d i t)) h2 h3).2
    | refuse => exact hh.keep (not_took_failed rfl).1 (not_took_failed rfl).2
  | @fault tr w cp c op w' hf h0 ha hm hb ih =>
    have hh := ih (fun cp c o h => hc cp c o (List.mem_append_left _ h)) (fun q m hq hm => hd q m (took_append.mpr (.inl hq)) (took_append.mpr (.inl hm)))
      (fun now ⟨cp, c, o, op, h, h'⟩ a ha => hl now ⟨cp, c, o, op, List.mem_append_left _ h, h'⟩ a (took_append.mpr (.inl ha)))
    have hcol : ∀ {op now}, Means cp c op → op.time = some now → w.collect now = w := fun {op now} hm ht => World.collect_live fun a b q hq => by
      rcases hh.absorbs.pairs a b with ⟨e, -⟩ | ⟨m, hm', -, -, e, -⟩
      · rw [hq] at e; cases e
      · rw [hq] at e
        cases e
        refine TrustRelation.trunc_live.mp fun x hx => ?_
        subst hx
        exact hl now ⟨cp, c, _, op, List.mem_append_right _ (.head _), hm, ht⟩ x (took_append.mpr (.inl hm'))
    obtain ⟨hc1, hc2⟩ := hc cp c _ (List.mem_append_right _ (.head _))
    cases hb with
    | nothing => exact hh.keep (not_took_failed rfl).1 (not_took_failed rfl).2
    | collected _ _ ht => rw [hcol hm ht]; exact hh.keep (not_took_failed rfl).1 (not_took_failed rfl).2
    | add =>
      cases hm with
      | insertCertRaw => exact absurd rfl (hc2 _ _)
      | insertCert => exact absurd rfl (hc1 _ _)
  | trap _ _ ih =>
    exact (ih (fun cp c o h => hc cp c o (List.mem_append_left _ h)) (fun q m hq hm => hd q m (took_append.mpr (.inl hq)) (took_append.mpr (.inl hm)))
      (fun now ⟨cp, c, o, op, h, h'⟩ a ha => hl now ⟨cp, c, o, op, List.mem_append_left _ h, h'⟩ a (took_append.mpr (.inl ha)))).keep (not_took_panic _ _).1 (not_took_panic _ _).2
  | stuck _ _ ih =>
    exact (ih (fun cp c o h => hc cp c o (List.mem_append_left _ h)) (fun q m hq hm => hd q m (took_append.mpr (.inl hq)) (took_append.mpr (.inl hm)))
      (fun now ⟨cp, c, o, op, h, h'⟩ a ha => hl now ⟨cp, c, o, op, List.mem_append_left _ h, h'⟩ a (took_append.mpr (.inl ha)))).keep (not_took_panic _ _).1 (not_took_panic _ _).2
  | @aside tr w cp c r _ hng hs ih =>
    have hh := ih (fun cp c o h => hc cp c o (List.mem_append_left _ h)) (fun q m hq hm => hd q m (took_append.mpr (.inl hq)) (took_append.mpr (.inl hm)))
      (fun now ⟨cp, c, o, op, h, h'⟩ a ha => hl now ⟨cp, c, o, op, List.mem_append_left _ h, h'⟩ a (took_append.mpr (.inl ha)))
    cases hr : r.success with
    | false => exact hh.keep (not_took_failed hr).1 (not_took_failed hr).2
    | true =>
      have hno := not_took_other (cp := cp) (c := c) (r := r) (by rintro _ _ _ rfl; exact absurd trivial hng) (by rintro _ _ rfl; exact hng trivial) (by
        rintro _ _ rfl
        cases hs with
        | answer ha => exact hng (ha.1 _ _ rfl)
        | decline ha => exact hng (ha.1 _ _ rfl)
        | compute _ hp => cases hp
        | refuse => cases hr)
      exact hh.keep hno.1 hno.2

/-- The last call of a run. -/
theorem Spec.Serves.last {faulty : Prop} {tr : List Event} {w' : World} {s' : Status} {cp : CallParams} {c : Call} {r : Res Payload}
    (h : Serves faulty (tr ++ [.call cp c (.ok r)]) w' s') :
    ∃ w s, Serves faulty tr w s ∧ ((∃ w'', Serve w cp c r w'') ∨ r = ⟨false, some (.tgError .internalStorageError), c.neutral⟩) := by
  generalize e : tr ++ [.call cp c (.ok r)] = l at h
  cases h with
  | new => simp at e
  | start => cases (List.append_inj' e rfl).2
  | noStart => cases (List.append_inj' e rfl).2
  | call h hs => obtain ⟨rfl, e2⟩ := List.append_inj' e rfl; cases List.singleton_inj.mp e2; exact ⟨_, _, h, .inl ⟨_, hs⟩⟩
  | fault _ h => obtain ⟨rfl, e2⟩ := List.append_inj' e rfl; cases List.singleton_inj.mp e2; exact ⟨_, _, h, .inr rfl⟩
  | trap => cases (List.append_inj' e rfl).2
  | stuck => cases (List.append_inj' e rfl).2
  | aside h _ hs => obtain ⟨rfl, e2⟩ := List.append_inj' e rfl; cases List.singleton_inj.mp e2; exact ⟨_, _, h, .inl ⟨_, hs⟩⟩

theorem Spec.Means.host {cp cp' : CallParams} {c : Call} {op : Op} (h : Means cp c op) (hp : c.peers cp = c.peers cp') : Means cp' c op := by
  cases h with
  | setRoot h => exact .setRoot h
  | insertCertRaw h => exact .insertCertRaw h
  | insertCert h => exact .insertCert h
  | getAllCerts h => exact .getAllCerts h
  | getAllCertsFrom h h2 => exact .getAllCertsFrom h h2
  | getHostCerts h => exact .getHostCerts ((List.cons.inj hp).1 ▸ h)
  | getHostCertsFrom h h2 => exact .getHostCertsFrom ((List.cons.inj hp).1 ▸ h) h2
  | getWeight h => exact .getWeight h
  | getWeightFrom h h2 => exact .getWeightFrom h h2
  | addTrust h h2 => exact .addTrust h h2
  | revoke h => exact .revoke h
  | exportRevocations h => exact .exportRevocations h

/-- **C136.**  Two services, in different places and with different histories, that have taken in the same trusts, revocations and roots, in whatever order, how often,
at what times and between what other calls, failures and restarts, say the same: if one of them answers a call with success, so does the other if it is allowed the
call and no SQL statement fails, and the answers are the same, up to the order of lists.  Provided no root is set twice with different chain lengths, two messages
about the same pair of keys are dated in different seconds, no trust has expired, and whole certificates are not inserted. -/
theorem C136_agree {faulty faulty' : Prop} {tr tr' : List Event} {cp cp' : CallParams} {c : Call} {r r' : Res Payload} {i i' : Option Instance} {f f' : Sql.File}
    (h : ServiceRun faulty (tr ++ [.call cp c (.ok r)]) i f) (h' : ServiceRun faulty' (tr' ++ [.call cp' c (.ok r')]) i' f')
    (hn : offeredIn (tr ++ [.call cp c (.ok r)]) + 16 < 2 ^ 32) (hn' : offeredIn (tr' ++ [.call cp' c (.ok r')]) + 16 < 2 ^ 32)
    (hsame : ∀ m, Took tr m ↔ Took tr' m) (hroots : ∀ k n, TookRoot tr k n ↔ TookRoot tr' k n)
    (hone : ∀ k n n', TookRoot tr k n → TookRoot tr k n' → n = n')
    (hdiff : ∀ q m, Took tr q → Took tr m → q.SamePair m → q.issuedAt.secs = m.issuedAt.secs → q = m)
    (hlive : ∀ now, (AsOf tr now ∨ AsOf tr' now) → ∀ a, Took tr (.auth a) → Live a.trust now)
    (hc : NoCertificates tr ∧ NoCertificates tr') (hp : c.peers cp = c.peers cp') (ha : Allowed cp' c)
    (hs : r.success = true) (he : r'.error ≠ some (.tgError .internalStorageError)) : r'.success = true ∧ SameReply cp c r r' := by
  obtain ⟨w1, s1, h1⟩ := C107_service h hn
  obtain ⟨w2, s2, h2⟩ := C107_service h' hn'
  obtain ⟨w, s, hw, hr⟩ := h1.last
  obtain ⟨w', s', hw', hr'⟩ := h2.last
  have a1 := hw.holds hc.1 hdiff fun now hnow => hlive now (.inl hnow)
  have a2 := hw'.holds hc.2 (fun q m hq hm => hdiff q m ((hsame q).mpr hq) ((hsame m).mpr hm)) fun now hnow a ha => hlive now (.inr hnow) a ((hsame _).mpr ha)
  have hroot : w.roots = w'.roots := by
    funext k
    rcases e1 : w.roots k with _ | n
    · rcases e2 : w'.roots k with _ | n'
      · rfl
      · obtain ⟨m, hm, -⟩ := a2.sound k n' e2
        have := a1.complete k m ((hroots k m).mpr hm)
        rw [e1] at this; cases this
    · obtain ⟨m, hm, rfl⟩ := a1.sound k n e1
      rcases e2 : w'.roots k with _ | n'
      · have := a2.complete k m ((hroots k m).mp hm)
        rw [e2] at this; cases this
      · obtain ⟨m', hm', rfl⟩ := a2.sound k n' e2
        rw [hone k m m' hm ((hroots k m').mpr hm')]
  have hww : w = w' := by
    refine a1.absorbs.unique (?_ : World.Absorbs _ _ w') hdiff
    rw [hroot]
    exact a2.absorbs.congr fun m => (hsame m).symm
  subst hww
  rcases hr with ⟨_, hr⟩ | rfl
  · rcases hr' with ⟨_, hr'⟩ | rfl
    · cases hr with
      | answer _ hm hst =>
        have hm := hm.host hp
        cases hr' with
        | answer _ hm' hst' =>
          cases hm.unique hm'
          refine ⟨rfl, ?_⟩
          obtain ⟨-, he⟩ := C99_determined hst hst'
          cases he with
          | same => exact .same _
          | certs hq => cases c <;> exact .certs (hq.map _)
          | revocations hq => cases c <;> exact .revocations (hq.map _)
        | decline _ hm' hst' =>
          cases hm.unique hm'
          obtain ⟨-, he⟩ := C99_determined hst hst'
          cases he
        | compute _ hp => exact (hm.not_computes hp).elim
        | refuse ho => exact absurd ⟨ha, .inl ⟨_, hm⟩⟩ (C107_objections ho)
      | decline => cases hs
      | compute _ hcp =>
        cases hr' with
        | answer _ hm => exact (hm.not_computes hcp).elim
        | decline _ hm => exact (hm.not_computes hcp).elim
        | compute _ hcp' => cases hcp.unique hcp'; exact ⟨rfl, .same _⟩
        | refuse ho => exact absurd ⟨ha, .inr ⟨_, hcp⟩⟩ (C107_objections ho)
      | refuse => cases hs
    · exact absurd rfl he
  · cases hs

end TG
