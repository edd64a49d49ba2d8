/-
C107: the whole service, with its SQL texts, is a run of a small reference machine.
C108: one bad text stops the service.
-/
import Verif.Proofs.ServiceRun

namespace TG
variable [Env]
open Spec SqlStorage

/-- **C107.**  Every run of the service on a new database file, with the SQL texts of the source, with any number of restarts, with calls by anyone with any arguments,
and with or without failing SQL statements, is a run of the reference machine: the same events with the same result records.  (Fewer than 2^32 - 16 relations are
handed over.) -/
theorem C107_service {faulty : Prop} {tr : List Event} {i : Option Instance} {f : Sql.File} (h : ServiceRun faulty tr i f)
    (hn : offeredIn tr + 16 < 2 ^ 32) : ∃ w s, Serves faulty tr w s := by
  rcases (h.machine hn).2.2 with ⟨db, -, -, -, -, hs⟩ | ⟨-, -, hs⟩
  · exact ⟨_, _, hs⟩
  · exact ⟨_, _, hs⟩

/-- **C107**: the service only refuses calls with good reason: what it objects to is never a call that is allowed and has a meaning. -/
theorem C107_objections {cp : CallParams} {c : Call} {e : ServiceError} (h : Objection cp c e) :
    ¬ (Allowed cp c ∧ ((∃ op, Means cp c op) ∨ ∃ p, Computes c p)) := by
  rintro ⟨ha, hm⟩
  have hr : Readable cp c := by
    rcases hm with ⟨op, hm⟩ | ⟨p, hm⟩
    · exact hm.readable
    · exact hm.readable
  cases h with
  | owner h => exact h (ha.1 _ _ rfl)
  | clock hc h => exact h (ha.2.1 _ hc)
  | futureTrust h => exact absurd (ha.2.2.1 _ _ _ rfl) (UInt64.not_le.mpr h)
  | futureRevocation h => exact absurd (ha.2.2.2 _ _ rfl) (UInt64.not_le.mpr h)
  | noPeerId hp h =>
    obtain ⟨k, q, hq, -⟩ := hr.peers _ hp
    rw [h] at hq; cases hq
  | noKey hp hq h =>
    obtain ⟨k, q, hq', hk⟩ := hr.peers _ hp
    rw [hq] at hq'; cases hq'
    exact h k hk
  | recordKey hp h =>
    obtain ⟨k, hk⟩ := hr.recordPeers _ hp
    exact h k hk
  | recordSignature hs h =>
    obtain ⟨x, hx, -⟩ := hr.signatures _ hs
    rw [h] at hx; cases hx
  | recordFormat hs h =>
    obtain ⟨x, -, hx⟩ := hr.signatures _ hs
    exact h _ hx
  | text h =>
    rcases hm with ⟨op, hm⟩ | ⟨p, hm⟩
    · cases hm with
      | insertCertRaw h2 => rw [h] at h2; cases h2
    · cases hm
  | wrong hx hk h =>
    rcases hm with ⟨op, hm⟩ | ⟨p, hm⟩
    · cases hm
    · cases hm with
      | verifyTrust hx' hk' h2 =>
        rw [hx.unique hx', hk.unique hk', h2] at h
        cases h

/-- The same record, except perhaps for the order of the listed certificates or revocations, or which of several good reasons for a refusal is given. -/
inductive Spec.SameReply (cp : CallParams) (c : Call) : Res Payload → Res Payload → Prop
  | same (r) : SameReply cp c r r
  | certs {cs cs'} : cs.Perm cs' → SameReply cp c ⟨true, none, .certs cs⟩ ⟨true, none, .certs cs'⟩
  | revocations {rs rs'} : rs.Perm rs' → SameReply cp c ⟨true, none, .revocations rs⟩ ⟨true, none, .revocations rs'⟩
  | refused {e e'} : Objection cp c e → Objection cp c e' → SameReply cp c ⟨false, some e, c.neutral⟩ ⟨false, some e', c.neutral⟩

/-- **C107**: the machine leaves nothing open but the order of lists, and which of several objections is reported: a call has one effect and one result. -/
theorem C107_determined {w w1 w2 : World} {cp : CallParams} {c : Call} {r1 r2 : Res Payload} (h1 : Serve w cp c r1 w1) (h2 : Serve w cp c r2 w2) :
    w1 = w2 ∧ SameReply cp c r1 r2 := by
  cases h1 with
  | answer ha hm hs =>
    cases h2 with
    | answer ha' hm' hs' =>
      cases hm.unique hm'
      obtain ⟨rfl, he⟩ := C99_determined hs hs'
      refine ⟨rfl, ?_⟩
      cases he with
      | same => exact .same _
      | certs hp => cases c <;> exact .certs (hp.map _)
      | revocations hp => cases c <;> exact .revocations (hp.map _)
    | decline ha' hm' hs' =>
      cases hm.unique hm'
      obtain ⟨-, he⟩ := C99_determined hs hs'
      cases he
    | compute _ hp => exact (hm.not_computes hp).elim
    | refuse ho => exact absurd ⟨ha, .inl ⟨_, hm⟩⟩ (C107_objections ho)
  | decline ha hm hs =>
    cases h2 with
    | answer ha' hm' hs' =>
      cases hm.unique hm'
      obtain ⟨-, he⟩ := C99_determined hs hs'
      cases he
    | decline ha' hm' hs' =>
      cases hm.unique hm'
      obtain ⟨rfl, he⟩ := C99_determined hs hs'
      cases he
      exact ⟨rfl, .same _⟩
    | compute _ hp => exact (hm.not_computes hp).elim
    | refuse ho => exact absurd ⟨ha, .inl ⟨_, hm⟩⟩ (C107_objections ho)
  | compute ha hp =>
    cases h2 with
    | answer _ hm => exact (hm.not_computes hp).elim
    | decline _ hm => exact (hm.not_computes hp).elim
    | compute _ hp' => cases hp.unique hp'; exact ⟨rfl, .same _⟩
    | refuse ho => exact absurd ⟨ha, .inr ⟨_, hp⟩⟩ (C107_objections ho)
  | refuse ho =>
    cases h2 with
    | answer ha hm => exact absurd ⟨ha, .inl ⟨_, hm⟩⟩ (C107_objections ho)
    | decline ha hm => exact absurd ⟨ha, .inl ⟨_, hm⟩⟩ (C107_objections ho)
    | compute ha hp => exact absurd ⟨ha, .inr ⟨_, hp⟩⟩ (C107_objections ho)
    | refuse ho' => exact ⟨rfl, .refused ho ho'⟩

/-- **C108 fails** (finding F30): after anyone has called `insert_cert_raw` with a text on which it panics (such as one with fewer than two lines), the service panics in
every call that needs the graph, by whomever and with whatever arguments, until it is started again. -/
theorem C108_stuck_fails {faulty : Prop} {pre later : List Event} {cp : CallParams} {text : Str} {t : UInt64} {o : Outcome Empty (Res Payload)}
    {i : Option Instance} {f : Sql.File} (h : ServiceRun faulty (pre ++ .call cp (.insertCertRaw text t) o :: later) i f)
    (ht : (lines text).length < 2 ∨ Certificate.fromStr text = .panic) (hl : ∀ b, .start b ∉ later) :
    o = .panic ∧ ∀ cp' c' o', .call cp' c' o' ∈ later → NeedsGraph cp' c' → o' = .panic := by
  have ht : Certificate.fromStr text = .panic := by
    rcases ht with ht | ht
    · exact (C49_text_exact_partial text).mpr (.inl ht)
    · exact ht
  have key : ∀ {tr : List Event} {i : Option Instance} {f : Sql.File}, ServiceRun faulty tr i f → ∀ pre later o,
      tr = pre ++ .call cp (.insertCertRaw text t) o :: later → (∀ b, .start b ∉ later) →
      (∀ x ∈ i, x.borrowed = true) ∧ o = .panic ∧ ∀ cp' c' o', .call cp' c' o' ∈ later → NeedsGraph cp' c' → o' = .panic := by
    intro tr i f h
    induction h with
    | new => intro pre later o e; simp at e
    | start _ ih =>
      intro pre later o e hl
      rcases List.eq_nil_or_concat later with rfl | ⟨l', x, rfl⟩
      · have := (List.append_inj' e rfl).2
        cases this
      · rw [List.concat_eq_append, ← List.cons_append, ← List.append_assoc] at e
        have := (List.append_inj' e rfl).2
        rw [← List.singleton_inj.mp this] at hl
        exact absurd (by rw [List.concat_eq_append]; exact List.mem_append_right _ (.head _)) (hl (startModule _).1.isSome)
    | @call tr i f cp' c' h0 ih =>
      intro pre later o e hl
      rcases List.eq_nil_or_concat later with rfl | ⟨l', x, rfl⟩
      · obtain ⟨rfl, e2⟩ := List.append_inj' e rfl
        cases e2
        have : (Call.insertCertRaw text t).exported cp i = (.panic, ⟨true, i.file⟩) := by
          rcases Call.fate (S := Sql.File) cp (.insertCertRaw text t) with ⟨op, -, hm, -⟩ | ⟨p, -, hp, -⟩ | ⟨e, ho, -⟩ | ⟨text', t', e, -, h⟩
          · cases hm with
            | insertCertRaw h2 => rw [ht] at h2; cases h2
          · cases hp
          · cases ho with
            | clock h => cases h
            | noPeerId h => cases h
            | noKey h => cases h
            | recordKey h => cases h
            | recordSignature h => cases h
            | recordFormat h => cases h
            | text h => rw [ht] at h; cases h
          · rw [Call.exported_needs (c := .insertCertRaw text t) trivial]
            unfold withTg
            rcases i with ⟨b, f⟩
            cases b with
            | true => rfl
            | false => simp only [h]; rfl
        rw [this]
        exact ⟨by simp, rfl, by simp⟩
      · rw [List.concat_eq_append, ← List.cons_append, ← List.append_assoc] at e
        obtain ⟨rfl, e2⟩ := List.append_inj' e rfl
        cases e2
        obtain ⟨h1, h2, h3⟩ := ih pre l' o rfl fun b hb => hl b (by simp [hb])
        have hb : i.borrowed = true := h1 i rfl
        refine ⟨?_, h2, ?_⟩
        · intro x hx
          cases hx
          by_cases hg : NeedsGraph cp' c'
          · rw [Call.exported_needs hg, withTg, if_pos hb]; exact hb
          · rw [Call.exported_aside hg]; exact hb
        · intro cp'' c'' o'' hm hg
          rw [List.concat_eq_append, List.mem_append, List.mem_singleton] at hm
          rcases hm with hm | hm
          · exact h3 _ _ _ hm hg
          · cases hm
            rw [Call.exported_needs hg, withTg, if_pos hb]
    | weather faults _ _ ih =>
      intro pre later o e hl
      obtain ⟨h1, h2⟩ := ih pre later o e hl
      refine ⟨?_, h2⟩
      intro x hx
      rw [Option.mem_def, Option.map_eq_some_iff] at hx
      obtain ⟨y, hy, rfl⟩ := hx
      exact h1 y hy
  exact (key h _ _ _ rfl hl).2

/-- **C108**, what holds: as long as nobody sends a text on which `insert_cert_raw` panics, every call by anyone returns a record, whatever the calls before were.  Missing:
those texts (`C108_stuck_fails`). -/
theorem C108_records_partial {faulty : Prop} {tr : List Event} {i : Option Instance} {f : Sql.File} (h : ServiceRun faulty tr i f)
    (hn : offeredIn tr + 16 < 2 ^ 32) (ht : ∀ cp text t o, .call cp (.insertCertRaw text t) o ∈ tr → Certificate.fromStr text ≠ .panic) :
    ∀ cp c o, .call cp c o ∈ tr → ∃ r, o = .ok r := by
  have key : ∀ {tr : List Event} {w : World} {s : Status}, Serves faulty tr w s →
      (∀ cp text t o, .call cp (.insertCertRaw text t) o ∈ tr → Certificate.fromStr text ≠ .panic) →
      s ≠ .stuck ∧ ∀ cp c o, .call cp c o ∈ tr → ∃ r, o = .ok r := by
    intro tr w s h
    induction h with
    | new => exact fun _ => ⟨by simp, by simp⟩
    | start _ ih =>
      intro ht
      obtain ⟨-, h⟩ := ih fun cp s t o hm => ht cp s t o (by simp [hm])
      exact ⟨by simp, fun cp c o hm => h cp c o (by simpa using hm)⟩
    | noStart _ _ ih =>
      intro ht
      obtain ⟨-, h⟩ := ih fun cp s t o hm => ht cp s t o (by simp [hm])
      exact ⟨by simp, fun cp c o hm => h cp c o (by simpa using hm)⟩
    | call _ _ ih =>
      intro ht
      obtain ⟨-, h⟩ := ih fun cp s t o hm => ht cp s t o (by simp [hm])
      refine ⟨by simp, fun cp c o hm => ?_⟩
      rcases List.mem_append.mp hm with hm | hm
      · exact h cp c o hm
      · cases List.mem_singleton.mp hm; exact ⟨_, rfl⟩
    | fault _ _ _ _ _ ih =>
      intro ht
      obtain ⟨-, h⟩ := ih fun cp s t o hm => ht cp s t o (by simp [hm])
      refine ⟨by simp, fun cp c o hm => ?_⟩
      rcases List.mem_append.mp hm with hm | hm
      · exact h cp c o hm
      · cases List.mem_singleton.mp hm; exact ⟨_, rfl⟩
    | trap _ hp _ => exact fun ht => absurd hp (ht _ _ _ _ (List.mem_append_right _ (.head _)))
    | stuck _ _ ih => exact fun ht => absurd rfl (ih fun cp s t o hm => ht cp s t o (by simp [hm])).1
    | aside _ _ _ ih => exact fun ht => absurd rfl (ih fun cp s t o hm => ht cp s t o (by simp [hm])).1
  obtain ⟨w, s, hs⟩ := C107_service h hn
  exact (key hs ht).2

/-- **C108**, what holds: a new start without failing SQL statements succeeds and ends it. -/
theorem C108_restart_partial {tr : List Event} {i : Option Instance} {f : Sql.File} (h : ServiceRun False tr i f) (hn : offeredIn tr + 16 < 2 ^ 32) :
    ∃ x, (startModule f).1 = some x ∧ ∀ (cp : CallParams) (c : Call), (∀ text t, c = .insertCertRaw text t → Certificate.fromStr text ≠ .panic) → offeredIn tr + c.offered + 16 < 2 ^ 32 →
      ∃ r, (c.exported cp x).1 = .ok r := by
  have hs := h.start
  have hn' : ∀ b, offeredIn (tr ++ [.start b]) = offeredIn tr := by intro b; simp [offeredIn]
  have hm := (hs.machine (by rw [hn']; exact hn)).2.2
  rcases hx : (startModule f).1 with _ | x
  · rw [hx] at hm
    exfalso
    have : ∀ {tr : List Event} {w : World} {s : Status}, Serves False (tr ++ [.start false]) w s → False := by
      intro tr w s h
      generalize e : tr ++ [Event.start false] = tr' at h
      cases h with
      | noStart h => exact h
      | fault h => exact h
      | new => simp at e
      | start => have := (List.append_inj' e rfl).2; cases this
      | call => have := (List.append_inj' e rfl).2; cases this
      | trap => have := (List.append_inj' e rfl).2; cases this
      | stuck => have := (List.append_inj' e rfl).2; cases this
      | aside => have := (List.append_inj' e rfl).2; cases this
    rcases hm with ⟨db, -, -, -, -, hm⟩ | ⟨-, -, hm⟩
    · exact this hm
    · exact this hm
  · refine ⟨x, rfl, fun cp c hc ho => ?_⟩
    have hb : x.borrowed = false := by
      unfold startModule at hx
      split at hx
      · cases hx; rfl
      · cases hx
    rw [hx] at hs hm
    rcases hm with ⟨db, e, hk, hr, hl, -⟩ | ⟨h, -⟩
    swap
    · cases h
    have hf : x.file = file db := by
      rw [← e]
      have := (hs.machine (by rw [hn']; exact hn)).2.1 x rfl
      exact this
    rcases x with ⟨b, f'⟩
    cases (show b = false from hb)
    cases (show f' = file db from hf)
    rw [(Call.exported_free cp c (file db)).1]
    rcases Call.fate (S := Sql.File) cp c with ⟨op, ha, hm, h⟩ | ⟨p, ha, hp, h⟩ | ⟨e, ho, h⟩ | ⟨text, t, rfl, ht, h⟩
    · rw [h, (op.callIn_sim db hk).1]
      have hof := hm.offers
      rw [hn'] at hl
      obtain ⟨-, hstep⟩ := Op.refines hr op (by omega)
      rcases hstep with hstep | ⟨-, he, -⟩
      · rcases hstep.outcome with ⟨a, hoa⟩ | ⟨e, hoe⟩
        · rw [hoa]; exact ⟨_, rfl⟩
        · rw [hoe]; exact ⟨_, rfl⟩
      · rw [he]; exact ⟨_, rfl⟩
    · rw [h]; exact ⟨_, rfl⟩
    · rw [h]; exact ⟨_, rfl⟩
    · exact absurd ht (hc _ _ rfl)

end TG
