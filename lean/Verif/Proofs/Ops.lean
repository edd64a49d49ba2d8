/-
Effects of a call, uniformly for all calls.
-/
import Verif.Spec.Ops
import Verif.Props.Relations

namespace TG
variable [Env]

omit [Env] in
theorem M.bind_pure_snd {S ε α β : Type} (x : M S ε α) (f : α → β) (s : S) :
    ((x >>= fun a => pure (f a)) s).2 = (x s).2 := by
  rw [M.bind_run]
  rcases x s with ⟨_ | _ | _ | _, _⟩ <;> rfl

theorem Op.call_state (op : Op) (db : Db) : (op.call db).2 = op.run db := by
  cases op <;> exact M.bind_pure_snd _ _ _

theorem Op.call_transparent (op : Op) : Transparent IsInternal op.call := by
  cases op
  · exact (TrustGraph.setRoot_transparent _ _).bind fun _ => .pure _
  · exact (TrustGraph.addTrust_transparent _ _ _).bind fun _ => .pure _
  · exact (TrustGraph.add_transparent _ _).bind fun _ => .pure _
  · exact (TrustGraph.revoke_transparent _).bind fun _ => .pure _
  · exact (TrustGraph.weight_transparent _ _).bind fun _ => .pure _
  · exact (TrustGraph.weightFrom_transparent _ _ _).bind fun _ => .pure _
  · exact (TrustGraph.getAllCerts_transparent _ _).bind fun _ => .pure _
  · exact (TrustGraph.getAllCertsFrom_transparent _ _ _).bind fun _ => .pure _
  · exact (TrustGraph.getRevocations_transparent _).bind fun _ => .pure _

section
variable {R : Db → Db → Prop}

theorem TrustGraph.addLoop_steps' {now : Dur} (hc : Collecting R now) (by' : PublicKey) (ts : List Trust)
    (h : ∀ p ∈ (by' :: ts.map (·.issuedFor)).zip ts, p.2.verify p.1 now = .ok () →
      ∀ db : Db, db.Newer (.auth ⟨p.2, p.1⟩) → R db (db.put (.auth ⟨p.2, p.1⟩))) :
    Steps R (addLoop (S := Db) now by' ts) := by
  induction ts generalizing by' with
  | nil => exact .pure hc.refl _
  | cons t ts ih =>
    exact (addTrust_steps hc _ _ (fun hv => h (by', t) (by simp) hv)).bind hc.trans fun _ =>
      ih _ fun p hp => h p (by
        rw [List.map_cons, List.zip_cons_cons]
        exact List.mem_cons_of_mem _ hp)

/-- Everything a call does to the database. -/
theorem Op.run_steps (hq : Quiet R) (op : Op)
    (hc : ∀ now, op.time = some now → ∀ db : Db, R db (db.collect now))
    (hp : ∀ r ∈ op.offers, r.SignatureValid → (∀ a now, r = .auth a → op.time = some now → a.trust.verify a.issuedBy now = .ok ()) →
      ∀ db : Db, db.Newer r → R db (db.put r))
    (hr : ∀ pk n, op = .setRoot pk n → ∀ db : Db, R db (db.addRoot pk (getWeightFactor n))) (db : Db) :
    R db (op.run db) := by
  cases op with
  | setRoot pk n => exact TrustGraph.setRoot_steps hq pk n (hr pk n rfl) db
  | addTrust t a now =>
    refine TrustGraph.addTrust_steps ⟨hq, hc now rfl⟩ t a (fun hv => ?_) db
    refine hp (.auth ⟨t, a⟩) (by simp [Op.offers]) (Trust.verify_signatureValid hv) ?_
    intro a' now' h1 h2
    cases h1
    cases h2
    exact hv
  | add c now =>
    have hcc : Collecting R now := ⟨hq, hc now rfl⟩
    show R db (TrustGraph.add c now db).2
    unfold TrustGraph.add
    rcases hch : c.chain with _ | ⟨t, ts⟩
    · exact hq.refl db
    · refine TrustGraph.addLoop_steps' hcc t.issuedFor (t :: ts) ?_ db
      intro p hp' hv
      rw [← Spec.issuers_zip] at hp'
      refine hp (.auth ⟨p.2, p.1⟩) ?_ (Trust.verify_signatureValid hv) ?_
      · show _ ∈ List.map _ _
        rw [hch]
        exact List.mem_map.mpr ⟨p, hp', rfl⟩
      · intro a' now' h1 h2
        cases h1
        cases h2
        exact hv
  | revoke r =>
    refine TrustGraph.revoke_steps hq r (fun hv => ?_) db
    refine hp (.revocation r) (by simp [Op.offers]) (Revocation.verify_signatureValid hv) ?_
    intro a now h1
    cases h1
  | weight pk now => exact TrustGraph.weight_steps ⟨hq, hc now rfl⟩ pk db
  | weightFrom pk i now => exact TrustGraph.weightFrom_steps ⟨hq, hc now rfl⟩ pk i db
  | getAllCerts pk now => exact TrustGraph.getAllCerts_steps ⟨hq, hc now rfl⟩ pk db
  | getAllCertsFrom pk i now => exact TrustGraph.getAllCertsFrom_steps ⟨hq, hc now rfl⟩ pk i db
  | getRevocations pk => exact TrustGraph.getRevocations_steps hq pk db

end

theorem Later.reachable {ok : Op → Prop} {db db' : Db} (h : Later ok db db') (hr : Reachable db) : Reachable db' := by
  induction h with
  | refl => exact hr
  | step op _ _ ih => exact ih.step op
  | weather fs _ ih => exact ih.weather fs

theorem Later.mono {ok ok' : Op → Prop} (h : ∀ op, ok op → ok' op) {db db' : Db} (hl : Later ok db db') : Later ok' db db' := by
  induction hl with
  | refl => exact .refl
  | step op hok _ ih => exact .step op (h op hok) ih
  | weather fs _ ih => exact .weather fs ih

theorem Later.trans {ok : Op → Prop} {a b c : Db} (h1 : Later ok a b) (h2 : Later ok b c) : Later ok a c := by
  induction h2 with
  | refl => exact h1
  | step op hok _ ih => exact .step op hok ih
  | weather fs _ ih => exact .weather fs ih

theorem Later.runAll {ok : Op → Prop} (ops : List Op) (h : ∀ op ∈ ops, ok op) (db : Db) : Later ok db (Op.runAll ops db) := by
  induction ops generalizing db with
  | nil => exact .refl
  | cons op ops ih =>
    exact Later.trans (.step op (h op (by simp)) .refl) (ih (fun o ho => h o (by simp [ho])) (op.run db))

end TG
