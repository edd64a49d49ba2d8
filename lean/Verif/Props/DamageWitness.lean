/-
C128: a file in which one row has lost its signature, and what happens then.
-/
import Verif.Props.Damage
import Verif.Props.SqlWitness

namespace TG.DamageDemo
open TG.Toy TG.Sql TG.Spec TG.SqlStorage

def ops : List Op :=
  [.setRoot (pk 1) 10, .add ⟨[trust 1 1 1000 1, trust 1 2 1000 1]⟩ (s 10), .addTrust (trust 1 3 1000 1) (pk 1) (s 10), .weight (pk 2) (s 10), .weight (pk 3) (s 10)]

/-- The file after these calls. -/
def used : File := SqlDemo.after ops SqlDemo.ready

theorem ran : SqlRun True true ([] ++ SqlDemo.answers ops SqlDemo.ready) used := by
  have h0 : SqlRun True false [] (⟨[], [false, true]⟩ : Sql.File) := .weather (f := ⟨[], []⟩) _ trivial .new
  have h1 := h0.start
  have h2 := h1.start
  rw [show (SqlStorage.createTables (SqlStorage.createTables ⟨[], [false, true]⟩).2).1 = .ok () from SqlDemo.facts.2.1] at h2
  exact SqlDemo.run h2 ops

/-- A row without signature that can be seen to be about the keys 1 and 2. -/
def lost : List Value := [.integer 0, .string (keyText (pk 2)), .string (keyText (pk 1)), .integer 1, .integer 1000, .null]

/-- The row of the trust of key 1 in key 2 has lost its signature. -/
def broken : File := ⟨Damage.tabs [rowOf (.auth ⟨trust 1 1 1000 1, pk 1⟩), lost, rowOf (.auth ⟨trust 1 3 1000 1, pk 1⟩)] (rootRows used), []⟩

def later : List Op := [.weight (pk 2) (s 11), .weight (pk 3) (s 11), .revoke (revocation 1 2 11), .revoke (revocation 1 3 11), .weight (pk 3) (s 12)]

set_option maxRecDepth 100000 in
theorem facts : used.faults = [] ∧ relRows used = [rowOf (.auth ⟨trust 1 1 1000 1, pk 1⟩), rowOf (.auth ⟨trust 1 2 1000 1, pk 1⟩), rowOf (.auth ⟨trust 1 3 1000 1, pk 1⟩)] ∧
    (SqlDemo.answers ops SqlDemo.ready).map (·.2) = [.ok .unit, .ok .unit, .ok (.weight 512), .ok (.weight 512), .ok (.weight 512)] ∧
    (SqlDemo.answers later broken).map (·.2) = [.ok (.weight 0), .ok (.weight 512), .err .internalStorageError, .ok .unit, .ok (.weight 0)] ∧
    ((relRows broken).map (fun r => (r[1]?, r[2]?))).Nodup ∧ Value.string [] ∉ lost := by
  decide +kernel

theorem garbled : Garbled lost where
  columns := rfl
  text := facts.2.2.2.2.2
  binary := by simp [lost]
  unreadable := by
    rintro ⟨t, a, b, i, e, sg, h⟩
    simp [lost] at h

theorem damaged : DamagedFrom used broken where
  tables := rfl
  rows row hr := by
    change row ∈ [rowOf (.auth ⟨trust 1 1 1000 1, pk 1⟩), lost, rowOf (.auth ⟨trust 1 3 1000 1, pk 1⟩)] at hr
    rw [facts.2.1]
    simp only [List.mem_cons, List.not_mem_nil, or_false] at hr ⊢
    rcases hr with h | h | h
    · exact .inl (.inl h)
    · exact .inr (h ▸ garbled)
    · exact .inl (.inr (.inr h))
  length := by rw [facts.2.1]; exact le_refl 3
  keyed := by
    have h := facts.2.2.2.2.1
    unfold List.Nodup at h
    rw [List.pairwise_map] at h
    refine h.imp ?_
    rintro r r' hne a b ⟨h1, h2, h3, h4⟩
    exact hne (by rw [h1, h2, h3, h4])
  faults := facts.1.symm

theorem from_run {faulty : Prop} {f g : File} {tr : List (Op × Outcome TrustGraphError Answer)} (h : From faulty f tr g) (ops : List Op) :
    From faulty f (tr ++ SqlDemo.answers ops g) (SqlDemo.after ops g) := by
  induction ops generalizing tr g with
  | nil => rw [SqlDemo.answers, List.append_nil]; exact h
  | cons op ops ih =>
    have := ih (h.step op)
    rw [List.append_assoc] at this
    exact this

/-- The calls made on the damaged file are explained by the reference machine. -/
example : ∃ w v v' : World, World.Run True ([] ++ SqlDemo.answers ops SqlDemo.ready) w ∧ v.roots = w.roots ∧
    (∀ a b r, v.relation a b = some r ↔ w.relation a b = some r ∧ rowOf r ∈ relRows broken) ∧
    v.Goes (fun op => True ∨ ∃ q ∈ op.offers, GarbledPair broken q.issuedBy q.issuedFor) ([] ++ SqlDemo.answers later broken) v' :=
  C128_after_run_partial ran damaged (from_run .refl later) (by decide +kernel) (by decide +kernel)

theorem left : ∃ v : World, Survives (GarbledPair broken) broken v := by
  obtain ⟨w, v, -, h, -⟩ := C128_left ran damaged (by decide +kernel)
  exact ⟨v, h⟩

/-- Without failing statements only what concerns the damaged pair may fail. -/
example : ∃ v v' : World, v.Goes (fun op => False ∨ ∃ q ∈ op.offers, GarbledPair broken q.issuedBy q.issuedFor) ([] ++ SqlDemo.answers later broken) v' := by
  obtain ⟨v, h⟩ := left
  obtain ⟨v', -, hv⟩ := C128_damaged_partial (faulty := False) h (fun h => absurd rfl h) (from_run .refl later) (by decide +kernel)
  exact ⟨v, v', hv⟩

/-- Key 1 cannot revoke key 2 any more. -/
example : (Op.revoke (revocation 1 2 11)).callIn broken = (.err .internalStorageError, broken) := by
  obtain ⟨v, h⟩ := left
  exact C128_blocked_fails h ⟨lost, List.mem_cons_of_mem _ List.mem_cons_self, garbled, rfl, rfl⟩ (by decide +kernel) rfl

/-- A row of the roots that has lost its key. -/
def rootless : File := ⟨Damage.tabs [] [ofRootRow ⟨keyText (pk 1), 6⟩, [.null, .integer 6]], []⟩

example (k a : PublicKey) (now : Dur) (x : Answer) : ((Op.getAllCerts k now).callIn rootless).1 ≠ .ok x ∧ ((Op.getAllCertsFrom k a now).callIn rootless).1 ≠ .ok x ∧
    ((Op.weight k now).callIn rootless).1 ≠ .ok x ∧ ((Op.weightFrom k a now).callIn rootless).1 ≠ .ok x :=
  C128_roots_fails rfl (fun row hr => by rcases List.mem_cons.mp hr with rfl | hr; rfl; obtain rfl := List.mem_singleton.mp hr; rfl)
    ⟨_, List.mem_cons_of_mem _ List.mem_cons_self, fun k => by simp⟩ k a now x

/-- A row with an empty text instead of the key of its issuer. -/
def emptied : File := ⟨Damage.tabs [lost, [.integer 1, .string (keyText (pk 2)), .string [], .integer 1, .integer 0, .null]] [], []⟩

example : ((Op.getRevocations (pk 2)).callIn emptied).1 = .panic :=
  C128_empty_fails rfl rfl (List.mem_cons_of_mem _ List.mem_cons_self) fun row hr => by
    rcases List.mem_cons.mp hr with rfl | hr
    · exact .inr (.inr garbled)
    · exact .inl (List.mem_singleton.mp hr)

/-- A trust of key 1 in key 9 that key 1 has not signed. -/
def madeUp : Trust := { issuedFor := pk 9, expiresAt := s 1000, issuedAt := s 1, signature := .ed25519 [7] }

/-- The row of the trust of key 1 in key 2 has been changed into another one that can be read. -/
def altered : File :=
  ⟨Damage.tabs [rowOf (.auth ⟨trust 1 1 1000 1, pk 1⟩), rowOf (.auth ⟨madeUp, pk 1⟩), rowOf (.auth ⟨trust 1 3 1000 1, pk 1⟩)] (rootRows used), []⟩

set_option maxRecDepth 100000 in
theorem alteredFacts : relRows altered = (relRows used).map (fun r => if r = rowOf (.auth ⟨trust 1 2 1000 1, pk 1⟩) then rowOf (.auth ⟨madeUp, pk 1⟩) else r) ∧
    rootRows altered = rootRows used ∧ ((Op.weight (pk 9) (s 11)).callIn used).1 = .ok (.weight 0) ∧ ((Op.weight (pk 9) (s 11)).callIn altered).1 = .ok (.weight 512) ∧
    ((Op.getAllCerts (pk 9) (s 11)).callIn altered).1 = .ok (.certs [⟨[trust 1 1 1000 1, madeUp]⟩]) ∧
    ¬ (⟨[trust 1 1 1000 1, madeUp]⟩ : Certificate).verify [pk 1] (s 11) = .ok () := by
  decide +kernel

/-- **C128 fails** for rows that are changed into other readable ones (finding F41): signatures are checked when a trust is submitted and never again, so the service
certifies a key that no root has ever trusted.  Who checks the certificate themselves notices. -/
theorem C128_altered_fails : ∃ (f f' : File) (tr : List (Op × Outcome TrustGraphError Answer)) (row row' : List Value) (k : PublicKey) (now : Dur) (c : Certificate),
    SqlRun True true tr f ∧ relRows f' = (relRows f).map (fun r => if r = row then row' else r) ∧ rootRows f' = rootRows f ∧
    ((Op.weight k now).callIn f).1 = .ok (.weight 0) ∧ ((Op.weight k now).callIn f').1 = .ok (.weight 512) ∧
    ((Op.getAllCerts k now).callIn f').1 = .ok (.certs [c]) ∧ ¬ c.verify [pk 1] now = .ok () :=
  ⟨used, altered, _, _, _, _, _, _, ran, alteredFacts⟩

end TG.DamageDemo
