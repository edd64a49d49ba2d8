/-
Property C102: the library works over any storage that keeps to the contract.
-/
import Verif.Proofs.Contract
import Verif.Props.Machine

namespace TG
open Look
variable [Env]

namespace ReadContract
variable {S σ : Type} [Storage S σ] {look : Look S} {faulty : Prop} (c : ReadContract (σ := σ) look faulty)
include c

/-- What adding trusts one after the other does. -/
theorem addLoop_machine {w : Spec.World} {n : Nat} (hf : w.Fit n) (now : Dur) (a : PublicKey) (ts : List Trust) (hn : n + ts.length + 16 < 2 ^ 32)
    (ht : ∀ p ∈ (a :: ts.map (·.issuedFor)).zip ts, look.Takes (σ := σ) faulty (.auth ⟨p.2, p.1⟩)) {s : S} (hs : look.At w s) : ∃ w', w'.Fit (n + ts.length) ∧ look.At w' (TrustGraph.addLoop now a ts s).2 ∧
      (((∃ e, (TrustGraph.addLoop now a ts s).1 = .err e) ∨ (TrustGraph.addLoop now a ts s).1 = .ok ()) ∧
        (Spec.World.AddChain now w a ts (unitAnswer (TrustGraph.addLoop now a ts s).1) w' ∨
          (faulty ∧ (TrustGraph.addLoop now a ts s).1 = .err .internalStorageError ∧ Spec.World.BreakChain now w a ts w'))) := by
  induction ts generalizing w n a s with
  | nil => exact ⟨w, hf, hs, .inr rfl, .inl .done⟩
  | cons t ts ih =>
    rw [List.length_cons] at hn ⊢
    unfold TrustGraph.addLoop
    rw [M.bind_run]
    rcases Trust.verify_cases t a now with hv | ⟨e, hv⟩
    · obtain ⟨s', ⟨y, h1, w1, h2, h3, h4⟩ | ⟨h0, h1, h2⟩⟩ := c.addTrust_tri hf (by omega) t a now hv (ht (a, t) (.head _)) s hs
      · rw [h1]
        obtain ⟨w', i1, i2, i3, i4⟩ := ih h3 t.issuedFor (by omega) (fun p hp => ht p (.tail _ hp)) h4
        refine ⟨w', i1.mono (by omega), i2, i3, ?_⟩
        rcases i4 with i4 | ⟨hf, ho, i4⟩
        · exact .inl (.next h2 i4)
        · exact .inr ⟨hf, ho, .later h2 i4⟩
      · rw [h1]
        rcases h2 with h2 | h2
        · exact ⟨w, hf.mono (by omega), h2, .inl ⟨_, rfl⟩, .inr ⟨h0, rfl, .here (.inl rfl)⟩⟩
        · exact ⟨_, (hf.collect now).mono (by omega), h2, .inl ⟨_, rfl⟩, .inr ⟨h0, rfl, .here (.inr rfl)⟩⟩
    · have : TrustGraph.addTrust t a now s = (.err (.trustVerificationError e), s) := by
        unfold TrustGraph.addTrust
        rw [hv]; rfl
      rw [this]
      exact ⟨w, hf.mono (by omega), hs, .inl ⟨_, rfl⟩, .inl (.refused hv)⟩

omit c in
theorem zip_dropLast (x : PublicKey) (l : List Trust) : (x :: l.dropLast.map (·.issuedFor)).zip l = (x :: l.map (·.issuedFor)).zip l := by
  induction l generalizing x with
  | nil => rfl
  | cons t l ih =>
    cases l with
    | nil => rfl
    | cons u l => exact congrArg _ (ih t.issuedFor)

/-- One call is one step of the machine, or breaks off when the storage fails. -/
theorem refines {w : Spec.World} {n : Nat} (hf : w.Fit n) (op : Op) (hn : n + op.offers.length + 16 < 2 ^ 32)
    (hr : ∀ k m, op = .setRoot k m → look.TakesRoots (σ := σ) faulty) (ht : ∀ q ∈ op.offers, look.Takes (σ := σ) faulty q) {s : S} (hs : look.At w s) :
    ∃ w', w'.Fit (n + op.offers.length) ∧ look.At w' (op.callIn s).2 ∧
      (w.Step op (op.callIn s).1 w' ∨ (faulty ∧ (op.callIn s).1 = .err .internalStorageError ∧ w.Break op w')) := by
  -- a query
  have query : ∀ {α : Type} {x : M S TrustGraphError α} {A : α → Prop} {now : Dur} (f : α → Answer) (op : Op)
      (_ : Tri faulty (look.At w) x (fun a s => A a ∧ look.At (w.collect now) s) (fun s => look.At w s ∨ look.At (w.collect now) s))
      (_ : (op.callIn : M S TrustGraphError Answer) = (x >>= fun a => pure (f a))) (_ : op.time = some now) (_ : ∀ c now, op ≠ .add c now)
      (_ : ∀ a, A a → w.Step op (.ok (f a)) (w.collect now)),
      ∃ w', w'.Fit (n + op.offers.length) ∧ look.At w' (op.callIn s).2 ∧
        (w.Step op (op.callIn s).1 w' ∨ (faulty ∧ (op.callIn s).1 = .err .internalStorageError ∧ w.Break op w')) := by
    intro α x A now f op ht hop htime hne hstep
    rw [hop, M.bind_run]
    obtain ⟨s', ⟨a, h1, h2, h3⟩ | ⟨h0, h1, h2⟩⟩ := ht s hs
    · rw [h1]
      exact ⟨_, (hf.collect now).mono (by omega), h3, .inl (hstep a h2)⟩
    · rw [h1]
      rcases h2 with h2 | h2
      · exact ⟨_, hf.mono (by omega), h2, .inr ⟨h0, rfl, .nothing _ hne⟩⟩
      · exact ⟨_, (hf.collect now).mono (by omega), h2, .inr ⟨h0, rfl, .collected _ hne htime⟩⟩
  cases op with
  | setRoot k m =>
    have e : (Op.setRoot k m).callIn s = (TrustGraph.setRoot k m >>= fun _ => pure Answer.unit : M S TrustGraphError Answer) s := rfl
    rw [e, M.bind_run]
    obtain ⟨s', ⟨a, h1, h2⟩ | ⟨h0, h1, h2⟩⟩ := setRoot_tri (w := w) (hr k m rfl) k m s hs
    · rw [h1]
      exact ⟨_, hf.setRoot k m, h2, .inl (.setRoot k m)⟩
    · rw [h1]
      exact ⟨_, hf, h2, .inr ⟨h0, rfl, .nothing _ (by simp)⟩⟩
  | addTrust t a now =>
    have e : (Op.addTrust t a now).callIn s = (TrustGraph.addTrust t a now >>= fun y => pure (Answer.weight y) : M S TrustGraphError Answer) s := rfl
    rw [e, M.bind_run]
    rcases Trust.verify_cases t a now with hv | ⟨e, hv⟩
    · obtain ⟨s', ⟨y, h1, w1, h2, h3, h4⟩ | ⟨h0, h1, h2⟩⟩ := c.addTrust_tri hf (by omega) t a now hv (ht _ (.head _)) s hs
      · rw [h1]
        exact ⟨w1, h3, h4, .inl (.addTrust h2)⟩
      · rw [h1]
        rcases h2 with h2 | h2
        · exact ⟨_, hf.mono (by omega), h2, .inr ⟨h0, rfl, .nothing _ (by simp)⟩⟩
        · exact ⟨_, (hf.collect now).mono (by omega), h2, .inr ⟨h0, rfl, .collected _ (by simp) rfl⟩⟩
    · have : TrustGraph.addTrust t a now s = (.err (.trustVerificationError e), s) := by
        unfold TrustGraph.addTrust
        rw [hv]; rfl
      rw [this]
      exact ⟨w, hf.mono (by omega), hs, .inl (.refuseTrust hv)⟩
  | add cert now =>
    obtain ⟨ts⟩ := cert
    rcases ts with _ | ⟨t, ts⟩
    · exact ⟨w, hf.mono (by omega), hs, .inl .addEmpty⟩
    · have hoff : (Op.add ⟨t :: ts⟩ now).offers.length = (t :: ts).length := by
        simp [Op.offers, Spec.issuers]
      rw [hoff] at hn ⊢
      obtain ⟨w', i1, i2, i3, i4⟩ := c.addLoop_machine hf now t.issuedFor (t :: ts) hn (by
        rw [← zip_dropLast]
        exact fun p hp => ht _ (List.mem_map.mpr ⟨p, hp, rfl⟩)) hs
      have e : (Op.add ⟨t :: ts⟩ now).callIn s = (unitAnswer (TrustGraph.addLoop now t.issuedFor (t :: ts) s).1, (TrustGraph.addLoop now t.issuedFor (t :: ts) s).2) := by
        show (TrustGraph.addLoop now t.issuedFor (t :: ts) >>= fun _ => pure Answer.unit : M S TrustGraphError Answer) s = _
        rw [M.bind_run]
        rcases TrustGraph.addLoop now t.issuedFor (t :: ts) s with ⟨o, s'⟩
        cases o <;> rfl
      rw [e]
      refine ⟨w', i1, i2, ?_⟩
      rcases i4 with i4 | ⟨h0, ho, i4⟩
      · exact .inl (.add i4)
      · exact .inr ⟨h0, by dsimp only; rw [ho]; rfl, .add i4⟩
  | revoke r =>
    have e : (Op.revoke r).callIn s = (TrustGraph.revoke r >>= fun _ => pure Answer.unit : M S TrustGraphError Answer) s := rfl
    rw [e, M.bind_run]
    rcases Revocation.verify_cases r with hv | ⟨e, hv⟩
    · have ht : Tri faulty (look.At w) (TrustGraph.revoke (S := S) r) (fun _ => look.At (w.update (.revocation r))) (look.At w) :=
        .bind (Q := fun _ => look.At w) (.lift (a := ()) (by rw [hv]; rfl) fun s hs => hs) fun _ =>
          Writes.tri fun s hs => by rw [← hs.2]; exact (ht _ (.head _) s hs.1).2 r rfl
      obtain ⟨s', ⟨a, h1, h2⟩ | ⟨h0, h1, h2⟩⟩ := ht s hs
      · rw [h1]
        exact ⟨_, hf.update _, h2, .inl (.revoke hv)⟩
      · rw [h1]
        exact ⟨_, hf.mono (by omega), h2, .inr ⟨h0, rfl, .nothing _ (by simp)⟩⟩
    · have : TrustGraph.revoke r s = (.err (.revokeCheckError e), s) := by
        unfold TrustGraph.revoke
        rw [hv]; rfl
      rw [this]
      exact ⟨w, hf.mono (by omega), hs, .inl (.refuseRevocation hv)⟩
  | weight k now => exact query Answer.weight _ (c.weight_tri hf (by omega) k now) rfl rfl (by simp) fun a h => .weight h
  | weightFrom k a now => exact query Answer.weight _ (c.weightFrom_tri hf (by omega) k a now) rfl rfl (by simp) fun a h => .weightFrom h
  | getAllCerts k now => exact query Answer.certs _ (c.getAllCerts_tri hf k now) rfl rfl (by simp) fun a h => .getAllCerts h
  | getAllCertsFrom k a now => exact query Answer.certs _ (c.getAllCertsFrom_tri hf k a now) rfl rfl (by simp) fun a h => .getAllCertsFrom h
  | getRevocations k =>
    have e : (Op.getRevocations k).callIn s = (TrustGraph.getRevocations k >>= fun rs => pure (Answer.revocations rs) : M S TrustGraphError Answer) s := rfl
    rw [e, M.bind_run]
    obtain ⟨s', ⟨rs, h1, rfl, h2⟩ | ⟨h0, h1, h2⟩⟩ := c.revs_tri (s0 := s) k s (Same.refl hs.1)
    · change TrustGraph.getRevocations k s = _ at h1
      rw [h1]
      refine ⟨w, hf, h2.at hs, .inl (.getRevocations ⟨c.revs_nodup s hs.1 k, fun r => ?_⟩)⟩
      rw [← hs.2]
      exact c.mem_revs s hs.1 k r
    · change TrustGraph.getRevocations k s = _ at h1
      rw [h1]
      exact ⟨w, hf, h2.at hs, .inr ⟨h0, rfl, .nothing _ (by simp)⟩⟩

end ReadContract

theorem Contract.takes {S σ : Type} [Storage S σ] {look : Look S} {faulty : Prop} (c : Contract (σ := σ) look faulty) (q : TrustRelation) : look.Takes (σ := σ) faulty q :=
  fun s hs => ⟨fun a now e => by cases e; exact c.updateAuth s hs a now, fun r e => by cases e; exact c.revoke s hs r⟩

/-- **C102.**  Over any storage that keeps to the contract the library behaves as the reference machine. -/
theorem C102_any_storage {S σ : Type} [Storage S σ] {look : Look S} {faulty : Prop} (c : Contract (σ := σ) look faulty)
    {tr : List (Op × Outcome TrustGraphError Answer)} {s : S} (h : look.Trace (σ := σ) tr s)
    (hn : (tr.flatMap (fun p => p.1.offers)).length + 16 < 2 ^ 32) : Spec.World.Run faulty tr (look.world s) := by
  suffices h : look.Ok s ∧ (look.world s).Fit (tr.flatMap (fun p => p.1.offers)).length ∧ Spec.World.Run faulty tr (look.world s) from h.2.2
  induction h with
  | start h0 h1 =>
    rw [h1]
    exact ⟨h0, .empty, .start⟩
  | @step tr s op _ ih =>
    rw [List.flatMap_append, List.length_append] at hn ⊢
    have e : (List.flatMap (fun p : Op × Outcome TrustGraphError Answer => p.1.offers) [(op, (op.callIn s).1)]) = op.offers := by
      simp
    rw [e] at hn ⊢
    obtain ⟨h1, h2, h3⟩ := ih (by omega)
    obtain ⟨w', i1, i2, i3⟩ := c.refines h2 op (by omega) (fun _ _ _ => c.setRootWeightFactor) (fun q _ => c.takes q) ⟨h1, rfl⟩
    refine ⟨i2.1, by rw [i2.2]; exact i1, ?_⟩
    rw [i2.2]
    rcases i3 with i3 | ⟨hf, ho, i3⟩
    · exact .step h3 i3
    · rw [ho]; exact .fault hf h3 i3
  | stir h1 h2 _ ih =>
    obtain ⟨-, i2, i3⟩ := ih hn
    rw [h2]
    exact ⟨h1, i2, i3⟩

end TG
