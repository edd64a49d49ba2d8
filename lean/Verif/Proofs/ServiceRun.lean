/-
Lemmas for `C107` and `C108`: runs of the service follow the reference machine.
-/
import Verif.Proofs.ServiceMachine
import Verif.Props.Sql

namespace TG
variable [Env]
open Spec SqlStorage

theorem Spec.World.AddChain.outcome {now : Dur} {w w' : World} {a : PublicKey} {ts : List Trust} {o : Outcome TrustGraphError Answer}
    (h : World.AddChain now w a ts o w') : (∃ a, o = .ok a) ∨ ∃ e, o = .err e := by
  induction h with
  | done => exact .inl ⟨_, rfl⟩
  | refused => exact .inr ⟨_, rfl⟩
  | next _ _ ih => exact ih

theorem Spec.World.Step.outcome {w w' : World} {op : Op} {o : Outcome TrustGraphError Answer} (h : w.Step op o w') :
    (∃ a, o = .ok a) ∨ ∃ e, o = .err e := by
  cases h with
  | add h => exact h.outcome
  | _ => first | exact .inl ⟨_, rfl⟩ | exact .inr ⟨_, rfl⟩

theorem fromStrLoop_length {i : Nat} {ls : List Str} {ts : List Trust} (h : Certificate.fromStrLoop i ls = .ok ts) : ts.length ≤ ls.length := by
  fun_induction Certificate.fromStrLoop i ls generalizing ts with
  | case1 i a b c d rest ih =>
    obtain ⟨t, -, h⟩ := Outcome.bind_eq_ok.mp h
    obtain ⟨ts', h1, h⟩ := Outcome.bind_eq_ok.mp h
    cases h
    have := ih h1
    simp only [List.length_cons]
    omega
  | case2 => cases h; exact Nat.le_refl _
  | case3 => cases h

theorem Spec.Means.offers {cp : CallParams} {c : Call} {op : Op} (h : Means cp c op) : op.offers.length ≤ c.offered := by
  have hadd : ∀ (c : Certificate) (t : Dur), (Op.add c t).offers.length ≤ c.chain.length := by
    intro c t
    simp [Op.offers]
  cases h with
  | @insertCertRaw s t c h =>
    refine le_trans (hadd _ _) ?_
    unfold Certificate.fromStr at h
    rcases hl : lines s with _ | ⟨f, _ | ⟨v, rest⟩⟩
    · rw [hl] at h; cases h
    · rw [hl] at h; cases h
    · rw [hl] at h
      dsimp only at h
      split at h
      · cases h
      · obtain ⟨ts, h1, h2⟩ := Outcome.bind_eq_ok.mp h
        cases h2
        have := fromStrLoop_length h1
        simp only [Call.offered, hl, List.length_cons, Certificate.newUnverified]
        omega
  | insertCert h => exact le_trans (hadd _ _) (le_of_eq h.length_eq.symm)
  | _ => exact Nat.le_refl _

theorem Call.exported_needs {cp : CallParams} {c : Call} (h : NeedsGraph cp c) : c.exported cp = withTg (c.reply cp) := by
  cases c with
  | setRoot => simp only [Call.exported, if_pos (show cp.serviceCreatorPeerId = cp.initPeerId from Eq.symm h)]
  | _ => first | rfl | exact absurd h id

theorem Call.exported_aside {cp : CallParams} {c : Call} (h : ¬ NeedsGraph cp c) : c.exported cp = wrappedTry (c.reply cp) := by
  cases c with
  | setRoot => simp only [Call.exported, if_neg (show ¬ cp.serviceCreatorPeerId = cp.initPeerId from fun e => h e.symm)]
  | _ => first | rfl | exact absurd trivial h

/-- A call on a module that is not stuck. -/
theorem Call.exported_free (cp : CallParams) (c : Call) (f : Sql.File) : (c.exported cp ⟨false, f⟩).1 = (c.reply cp f).1 ∧
    (c.exported cp ⟨false, f⟩).2.file = (c.reply cp f).2 ∧ ((c.exported cp ⟨false, f⟩).2.borrowed = true ↔ NeedsGraph cp c ∧ (c.reply cp f).1 = .panic) := by
  by_cases h : NeedsGraph cp c
  · rw [Call.exported_needs h]
    unfold withTg
    rcases c.reply cp f with ⟨_ | _ | _ | _, f'⟩ <;> simp [h]
  · rw [Call.exported_aside h]
    unfold wrappedTry
    simp [h]

/-- A call that does not need the graph leaves the file as it is, and does not panic. -/
theorem Call.reply_aside {cp : CallParams} {c : Call} (h : ¬ NeedsGraph cp c) (w : World) : ∃ r, Serve w cp c r w ∧
    ∀ f : Sql.File, c.reply cp f = (.ok r, f) := by
  rcases Call.fate (S := Sql.File) cp c with ⟨op, ha, hm, -⟩ | ⟨p, ha, hp, h'⟩ | ⟨e, ho, h'⟩ | ⟨text, t, rfl, ht, h'⟩
  · exfalso
    cases hm with
    | setRoot => exact h (ha.1 _ _ rfl)
    | _ => exact h trivial
  · exact ⟨_, .compute ha hp, h'⟩
  · exact ⟨_, .refuse ho, h'⟩
  · exact absurd trivial h

/-- What `ServiceRun.machine` shows of every run: the file is that of a graph, which is the state of the machine. -/
def Tracks (faulty : Prop) (tr : List Event) (i : Option Instance) (f : Sql.File) : Prop :=
  (f.faults ≠ [] → faulty) ∧ (∀ x ∈ i, x.file = f) ∧
  ((∃ db, f = file db ∧ Keyed db ∧ Reachable db ∧ db.relations.length ≤ offeredIn tr ∧
      Serves faulty tr db.world (match i with | none => .down | some x => if x.borrowed then .stuck else .up)) ∨
    (i = none ∧ (f.tables = [] ∨ f.tables = relationsOnly) ∧ Serves faulty tr .empty .down))

theorem Tracks.start {faulty : Prop} {tr : List Event} {i : Option Instance} {f : Sql.File} (h : Tracks faulty tr i f) :
    Tracks faulty (tr ++ [.start (startModule f).1.isSome]) (startModule f).1 (startModule f).2 := by
  obtain ⟨hf, -, h⟩ := h
  have hsum : ∀ b, offeredIn (tr ++ [.start b]) = offeredIn tr := by intro b; simp [offeredIn]
  have htail : ∀ l : List Bool, (l.tail ≠ [] → l ≠ []) := by intro l h h0; rw [h0] at h; exact h rfl
  unfold Tracks startModule
  rw [hsum]
  rcases h with ⟨db, rfl, hk, hr, hl, hs⟩ | ⟨rfl, hT, hs⟩
  · rcases createTables_cases (f := file db) (create_relations_again (relationsTable db.relations) [("roots".toList, rootsTable db.roots)])
      (create_roots_again db) with ⟨hc, hne⟩ | ⟨hc, hne⟩ | hc
    · rw [hc]
      exact ⟨fun h => hf (htail _ h), by simp, .inl ⟨{ db with faults := db.faults.tail }, rfl, hk, hr.weather _, hl, hs.noStart (hf hne)⟩⟩
    · rw [hc]
      exact ⟨fun h => hf (htail _ (htail _ h)), by simp,
        .inl ⟨{ db with faults := db.faults.tail.tail }, rfl, hk, hr.weather _, hl, hs.noStart (hf hne)⟩⟩
    · rw [hc]
      exact ⟨fun h => hf (htail _ (htail _ h)), by simp, .inl ⟨{ db with faults := db.faults.tail.tail }, rfl, hk, hr.weather _, hl, hs.start⟩⟩
  · have hc : (createTables f = (.panic, ⟨f.tables, f.faults.tail⟩) ∧ f.faults ≠ []) ∨
        (createTables f = (.panic, ⟨relationsOnly, f.faults.tail.tail⟩) ∧ f.faults ≠ []) ∨
        createTables f = (.ok (), ⟨(file ⟨[], [], []⟩).tables, f.faults.tail.tail⟩) := by
      apply createTables_cases _ create_roots_new
      rcases hT with hT | hT
      · rw [hT]; exact create_relations_new
      · rw [hT]; exact create_relations_again _ _
    rcases hc with ⟨hc, hne⟩ | ⟨hc, hne⟩ | hc
    · rw [hc]; exact ⟨fun h => hf (htail _ h), by simp, .inr ⟨rfl, hT, hs.noStart (hf hne)⟩⟩
    · rw [hc]; exact ⟨fun h => hf (htail _ (htail _ h)), by simp, .inr ⟨rfl, .inr rfl, hs.noStart (hf hne)⟩⟩
    · rw [hc]
      refine ⟨fun h => hf (htail _ (htail _ h)), by simp, .inl ⟨⟨[], [], f.faults.tail.tail⟩, rfl, List.nodup_nil,
        Reachable.weather (db := ⟨[], [], []⟩) _ .init, Nat.zero_le _, ?_⟩⟩
      have hw : (⟨[], [], f.faults.tail.tail⟩ : Db).world = World.empty := Db.world_init
      rw [hw]
      exact hs.start

theorem Tracks.call {faulty : Prop} {tr : List Event} {i : Instance} {f : Sql.File} (cp : CallParams) (c : Call) (h : Tracks faulty tr (some i) f)
    (hn : offeredIn tr + c.offered + 16 < 2 ^ 32) :
    Tracks faulty (tr ++ [.call cp c (c.exported cp i).1]) (some (c.exported cp i).2) (c.exported cp i).2.file := by
  have hsum : ∀ o, offeredIn (tr ++ [.call cp c o]) = offeredIn tr + c.offered := by intro o; simp [offeredIn]
  obtain ⟨hf, hif, h⟩ := h
  rcases h with ⟨db, rfl, hk, hr, hl, hs⟩ | ⟨h, -⟩
  swap
  · cases h
  have hif : i.file = file db := hif i rfl
  rcases i with ⟨b, f⟩
  cases (show f = file db from hif)
  unfold Tracks
  rw [hsum]
  simp only [Option.mem_some_iff, forall_eq', true_and]
  cases b with
  | true =>
    simp only [if_true] at hs
    by_cases hg : NeedsGraph cp c
    · rw [Call.exported_needs hg]
      exact ⟨hf, .inl ⟨db, rfl, hk, hr, by omega, hs.stuck hg⟩⟩
    · rw [Call.exported_aside hg]
      obtain ⟨r, hr', he⟩ := Call.reply_aside hg db.world
      simp only [wrappedTry, he, if_true]
      exact ⟨hf, .inl ⟨db, rfl, hk, hr, by omega, hs.aside hg hr'⟩⟩
  | false =>
    simp only [Bool.false_eq_true, if_false] at hs
    obtain ⟨e1, e2, e3⟩ := Call.exported_free cp c (file db)
    rw [e1, e2]
    have hb : (c.reply cp (file db)).1 ≠ .panic → (c.exported cp ⟨false, file db⟩).2.borrowed = false := by
      intro h; rw [← Bool.not_eq_true, e3]; exact fun h' => h h'.2
    rcases Call.fate (S := Sql.File) cp c with ⟨op, ha, hm, h⟩ | ⟨p, ha, hp, h⟩ | ⟨e, ho, h⟩ | ⟨text, t, rfl, ht, h⟩
    · obtain ⟨hsim, hk'⟩ := op.callIn_sim db hk
      have ho := hm.offers
      obtain ⟨hl', hstep⟩ := Op.refines hr op (by omega)
      have hr' : Reachable (op.call db).2 := by rw [Op.call_state]; exact hr.step op
      have hf' : (op.call db).2.faults ≠ [] → faulty := fun h => hf fun h0 => h (op.call_failStop.noFaults h0)
      rw [h, hsim] at hb ⊢
      rcases hstep with hstep | ⟨hnf, he, hbr⟩
      · rcases hstep.outcome with ⟨a, hoa⟩ | ⟨e, hoe⟩
        · rw [hoa] at hstep hb ⊢
          rw [hb (by intro h; cases h)]
          exact ⟨hf', .inl ⟨(op.call db).2, rfl, hk', hr', by omega, hs.call (.answer ha hm hstep)⟩⟩
        · rw [hoe] at hstep hb ⊢
          rw [hb (by intro h; cases h)]
          exact ⟨hf', .inl ⟨(op.call db).2, rfl, hk', hr', by omega, hs.call (.decline ha hm hstep)⟩⟩
      · rw [he] at hb ⊢
        rw [hb (by intro h; cases h)]
        exact ⟨hf', .inl ⟨(op.call db).2, rfl, hk', hr', by omega, .fault (hf hnf) hs ha hm hbr⟩⟩
    · rw [h] at hb ⊢
      rw [hb (by intro h; cases h)]
      exact ⟨hf, .inl ⟨db, rfl, hk, hr, by omega, hs.call (.compute ha hp)⟩⟩
    · rw [h] at hb ⊢
      rw [hb (by intro h; cases h)]
      exact ⟨hf, .inl ⟨db, rfl, hk, hr, by omega, hs.call (.refuse ho)⟩⟩
    · rw [e3.mpr ⟨trivial, by rw [h]⟩, h]
      exact ⟨hf, .inl ⟨db, rfl, hk, hr, by omega, hs.trap ht⟩⟩

theorem ServiceRun.machine {faulty : Prop} {tr : List Event} {i : Option Instance} {f : Sql.File}
    (h : ServiceRun faulty tr i f) (hn : offeredIn tr + 16 < 2 ^ 32) : Tracks faulty tr i f := by
  induction h with
  | new => exact ⟨fun h => absurd rfl h, by simp, .inr ⟨rfl, .inl rfl, .new⟩⟩
  | start _ ih => exact (ih (by simpa [offeredIn] using hn)).start
  | call cp c _ ih =>
    rw [offeredIn, List.map_append, List.sum_append] at hn
    simp only [List.map_cons, List.map_nil, List.sum_cons, List.sum_nil, Nat.add_zero] at hn
    exact (ih (Nat.lt_of_le_of_lt (by unfold offeredIn; omega) hn)).call cp c hn
  | @weather tr i f faults hw _ ih =>
    obtain ⟨_, hi, ih⟩ := ih hn
    refine ⟨fun _ => hw, ?_, ?_⟩
    · intro x hx
      rw [Option.mem_def, Option.map_eq_some_iff] at hx
      obtain ⟨y, hy, rfl⟩ := hx
      rw [hi y hy]
    · rcases ih with ⟨db, rfl, hk, hr, hl, hs⟩ | ⟨rfl, h⟩
      · refine .inl ⟨{ db with faults }, rfl, hk, hr.weather _, hl, ?_⟩
        cases i <;> exact hs
      · exact .inr ⟨rfl, h⟩

theorem Spec.Names.unique {s : Str} {k k' : PublicKey} (h : Names s k) (h' : Names s k') : k = k' := by
  obtain ⟨p, hp, hk⟩ := h
  obtain ⟨p', hp', hk'⟩ := h'
  rw [hp] at hp'
  cases hp'
  rw [hk] at hk'
  cases hk'
  rfl

theorem Spec.IsSignature.unique {t f : Str} {s s' : Signature} (h : IsSignature t f s) (h' : IsSignature t f s') : s = s' := by
  have e1 : s.raw = s'.raw := Option.some.inj (h.1.symm.trans h'.1)
  have e2 : s.sigType.toStr = s'.sigType.toStr := h.2.symm.trans h'.2
  have e3 : s.sigType = s'.sigType := by
    generalize s.sigType = a at e2
    generalize s'.sigType = b at e2
    revert e2
    have d1 : "ed25519".toList ≠ "rsa".toList := by decide
    have d2 : "ed25519".toList ≠ "secp256k1".toList := by decide
    have d3 : "rsa".toList ≠ "secp256k1".toList := by decide
    cases a <;> cases b <;> intro h
    exacts [rfl, absurd h d1, absurd h d2, absurd h.symm d1, rfl, absurd h d3, absurd h.symm d2, absurd h.symm d3, rfl]
  rw [← Signature.fromBytes_raw s, ← Signature.fromBytes_raw s', e1, e3]

theorem Spec.IsTrust.unique {d : TrustDto} {t t' : Trust} (h : IsTrust d t) (h' : IsTrust d t') : t = t' := by
  obtain ⟨h1, h2, h3, h4⟩ := h
  obtain ⟨h1', h2', h3', h4'⟩ := h'
  cases t; cases t'
  cases h1.unique h1'
  cases h2.unique h2'
  cases h3.trans h3'.symm
  cases h4.trans h4'.symm
  rfl

theorem Spec.IsRevocation.unique {d : RevocationDto} {r r' : Revocation} (h : IsRevocation d r) (h' : IsRevocation d r') : r = r' := by
  obtain ⟨h1, h2, h3, h4⟩ := h
  obtain ⟨h1', h2', h3', h4'⟩ := h'
  cases r; cases r'
  cases h1.unique h1'
  cases h2.unique h2'
  cases h3.unique h3'
  cases h4.trans h4'.symm
  rfl

theorem Spec.IsCertificate.unique {d : CertDto} {c c' : Certificate} (h : IsCertificate d c) (h' : IsCertificate d c') : c = c' := by
  rcases c with ⟨ts⟩
  rcases c' with ⟨ts'⟩
  have : ts = ts' := by
    unfold IsCertificate at h h'
    generalize d.chain = ds at h h'
    dsimp only at h h'
    induction h generalizing ts' with
    | nil => cases h'; rfl
    | cons h _ ih =>
      cases h' with
      | cons h2 hs => rw [h.unique h2, ih _ hs]
  rw [this]

/-- A call stands for at most one library call. -/
theorem Spec.Means.unique {cp : CallParams} {c : Call} {op op' : Op} (h : Means cp c op) (h' : Means cp c op') : op = op' := by
  cases h with
  | insertCertRaw h =>
    cases h' with
    | insertCertRaw h2 => rw [h] at h2; cases h2; rfl
  | insertCert h =>
    cases h' with
    | insertCert h2 => rw [h.unique h2]
  | addTrust h1 h2 =>
    cases h' with
    | addTrust h3 h4 => rw [h1.unique h3, h2.unique h4]
  | revoke h =>
    cases h' with
    | revoke h2 => rw [h.unique h2]
  | setRoot h => cases h' with | setRoot h2 => rw [h.unique h2]
  | getAllCerts h => cases h' with | getAllCerts h2 => rw [h.unique h2]
  | getHostCerts h => cases h' with | getHostCerts h2 => rw [h.unique h2]
  | getWeight h => cases h' with | getWeight h2 => rw [h.unique h2]
  | exportRevocations h => cases h' with | exportRevocations h2 => rw [h.unique h2]
  | getAllCertsFrom h1 h2 => cases h' with | getAllCertsFrom h3 h4 => rw [h1.unique h3, h2.unique h4]
  | getHostCertsFrom h1 h2 => cases h' with | getHostCertsFrom h3 h4 => rw [h1.unique h3, h2.unique h4]
  | getWeightFrom h1 h2 => cases h' with | getWeightFrom h3 h4 => rw [h1.unique h3, h2.unique h4]

theorem Spec.Computes.unique {c : Call} {p p' : Payload} (h : Computes c p) (h' : Computes c p') : p = p' := by
  cases h with
  | getTrustBytes h => cases h' with | getTrustBytes h2 => rw [h.unique h2]
  | issueTrust h => cases h' with | issueTrust h2 => rw [h.unique h2]
  | verifyTrust => cases h'; rfl
  | getRevocationBytes h => cases h' with | getRevocationBytes h2 => rw [h.unique h2]
  | issueRevocation h1 h2 => cases h' with | issueRevocation h3 h4 => rw [h1.unique h3, h2.unique h4]

theorem Spec.Means.not_computes {cp : CallParams} {c : Call} {op : Op} {p : Payload} (h : Means cp c op) (h' : Computes c p) : False := by
  cases h <;> cases h'

/-- Everything in the arguments can be read. -/
structure Readable (cp : CallParams) (c : Call) : Prop where
  peers : ∀ p ∈ c.peers cp, ∃ k, Names p k
  recordPeers : ∀ p ∈ c.recordPeers, ∃ k, Names p k
  signatures : ∀ s ∈ c.signatures, ∃ x, IsSignature s.1 s.2 x

theorem Spec.IsCertificate.readable {ds : List TrustDto} {ts : List Trust} (h : List.Forall₂ IsTrust ds ts) :
    (∀ p ∈ ds.map (·.issuedFor), ∃ k, Names p k) ∧ ∀ s ∈ ds.map (fun t => (t.signature, t.sigType)), ∃ x, IsSignature s.1 s.2 x := by
  induction h with
  | nil => simp
  | cons h _ ih =>
    refine ⟨?_, ?_⟩
    · intro p hp
      rcases List.mem_cons.mp hp with rfl | hp
      · exact ⟨_, h.1⟩
      · exact ih.1 p hp
    · intro p hp
      rcases List.mem_cons.mp hp with rfl | hp
      · exact ⟨_, h.2.1⟩
      · exact ih.2 p hp

theorem Spec.Means.readable {cp : CallParams} {c : Call} {op : Op} (h : Means cp c op) : Readable cp c := by
  cases h with
  | insertCert h => exact ⟨by simp [Call.peers], (IsCertificate.readable h).1, (IsCertificate.readable h).2⟩
  | addTrust h1 h2 =>
    refine ⟨?_, ?_, ?_⟩ <;> simp only [Call.peers, Call.recordPeers, Call.signatures, List.mem_singleton, forall_eq]
    exacts [⟨_, h2⟩, ⟨_, h1.1⟩, ⟨_, h1.2.1⟩]
  | revoke h =>
    refine ⟨?_, ?_, ?_⟩ <;> simp only [Call.peers, Call.recordPeers, Call.signatures, List.mem_cons, List.not_mem_nil, or_false,
      forall_eq, forall_eq_or_imp, false_implies, implies_true]
    exacts [⟨⟨_, h.1⟩, ⟨_, h.2.1⟩⟩, ⟨_, h.2.2.1⟩]
  | insertCertRaw => exact ⟨by simp [Call.peers], by simp [Call.recordPeers], by simp [Call.signatures]⟩
  | getAllCertsFrom h1 h2 => exact ⟨by simpa [Call.peers] using ⟨⟨_, h1⟩, ⟨_, h2⟩⟩, by simp [Call.recordPeers], by simp [Call.signatures]⟩
  | getHostCertsFrom h1 h2 => exact ⟨by simpa [Call.peers] using ⟨⟨_, h1⟩, ⟨_, h2⟩⟩, by simp [Call.recordPeers], by simp [Call.signatures]⟩
  | getWeightFrom h1 h2 => exact ⟨by simpa [Call.peers] using ⟨⟨_, h1⟩, ⟨_, h2⟩⟩, by simp [Call.recordPeers], by simp [Call.signatures]⟩
  | setRoot h | getAllCerts h | getHostCerts h | getWeight h | exportRevocations h =>
    exact ⟨by simpa [Call.peers] using ⟨_, h⟩, by simp [Call.recordPeers], by simp [Call.signatures]⟩

theorem Spec.Computes.readable {cp : CallParams} {c : Call} {p : Payload} (h : Computes c p) : Readable cp c := by
  cases h with
  | verifyTrust h1 h2 =>
    refine ⟨?_, ?_, ?_⟩ <;> simp only [Call.peers, Call.recordPeers, Call.signatures, List.mem_singleton, forall_eq]
    exacts [⟨_, h2⟩, ⟨_, h1.1⟩, ⟨_, h1.2.1⟩]
  | issueRevocation h1 h2 => exact ⟨by simpa [Call.peers] using ⟨⟨_, h1⟩, ⟨_, h2⟩⟩, by simp [Call.recordPeers], by simp [Call.signatures]⟩
  | getTrustBytes h | issueTrust h | getRevocationBytes h =>
    exact ⟨by simpa [Call.peers] using ⟨_, h⟩, by simp [Call.recordPeers], by simp [Call.signatures]⟩

end TG
