/-
Property C85: what the start script can do to a database that is already in use.
-/
import Verif.Model.OnStart
import Verif.Props.History
import Verif.Spec.Crypto

namespace TG
open TG.Service
variable [Env]

/-- The calls of the library that the start script can cause. -/
def Spec.StartCall (certs : List (CertDto × UInt64)) (op : Op) : Prop :=
  (∃ pk, op = .setRoot pk 5 ∧ extractPublicKey Aqua.fluenceRootPeerId = .ok pk) ∨
    ∃ c now cert, (c, now) ∈ certs ∧ Dto.toCertificate c = .ok cert ∧ op = .add cert (.ofSecs now)

/-- `set_root` of the service by `set_root` of the library, if the caller is the owner. -/
theorem Service.setRoot_later {ok : Op → Prop} (cp : CallParams) (p : Str) (m : UInt32)
    (h : ∀ pk, extractPublicKey p = .ok pk → cp.serviceCreatorPeerId = cp.initPeerId → ok (.setRoot pk m.toNat)) (db : Db) :
    Later ok db (Service.setRoot cp p m db).2 := by
  unfold Service.setRoot
  split
  · next ho =>
    rcases he : extractPublicKey p with pk | e | _ | _
    · rw [show (into () (do let pk ← M.lift (Outcome.ok pk); tg (TrustGraph.setRoot pk m.toNat)) db).2 = Op.run (.setRoot pk m.toNat) db from rfl]
      exact .step _ (h pk he ho) .refl
    all_goals exact .refl
  · exact .refl

theorem Service.insertCert_later {ok : Op → Prop} (cp : CallParams) (c : CertDto) (now : UInt64)
    (h : ∀ cert, Dto.toCertificate c = .ok cert → ok (.add cert (.ofSecs now))) (db : Db) :
    Later ok db (Service.insertCert cp c now db).2 := by
  unfold Service.insertCert
  rcases he : Dto.toCertificate c with cert | e | _ | _
  · rw [show (into () (do let c ← M.lift (Outcome.mapErr ServiceError.dtoError (Outcome.ok cert)); tg (TrustGraph.add c (.ofSecs now))) db).2
      = Op.run (.add cert (.ofSecs now)) db from rfl]
    exact .step _ (h cert he) .refl
  all_goals exact .refl

theorem OnStart.insertAll_later {ok : Op → Prop} (n : Node) (certs : List (CertDto × UInt64))
    (h : ∀ p ∈ certs, ∀ cert, Dto.toCertificate p.1 = .ok cert → ok (.add cert (.ofSecs p.2))) :
    Steps (Later ok) (OnStart.insertAll n certs) := by
  have hr : ∀ s : Db, Later ok s s := fun _ => .refl
  have ht : ∀ a b c : Db, Later ok a b → Later ok b c → Later ok a c := fun _ _ _ => Later.trans
  induction certs with
  | nil => exact .pure hr _
  | cons p rest ih =>
    exact Steps.bind ht (fun db => Service.insertCert_later _ p.1 p.2 (h p (.head _)) db) fun _ =>
      Steps.bind ht (ih fun q hq => h q (.tail _ hq)) fun _ => .pure hr _

/-- The script acts through these calls only, whatever fails. -/
theorem OnStart.run_later (n : Node) (certs : List (CertDto × UInt64)) (db : Db) :
    Later (Spec.StartCall certs) db (OnStart.run n certs db).2 := by
  have hr : ∀ s : Db, Later (Spec.StartCall certs) s s := fun _ => .refl
  have ht : ∀ a b c : Db, Later (Spec.StartCall certs) a b → Later (Spec.StartCall certs) b c → Later (Spec.StartCall certs) a c :=
    fun _ _ _ => Later.trans
  exact Steps.bind ht (fun db => Service.setRoot_later _ _ _ (fun pk h _ => .inl ⟨pk, rfl, h⟩) db)
    (fun _ => Steps.bind ht (OnStart.insertAll_later n certs fun p hp cert h => .inr ⟨p.1, p.2, cert, hp, h, rfl⟩)
      fun _ => .pure hr _) db

/-- A trust of a certificate of the list, with its issuer. -/
def Spec.Listed (certs : List (CertDto × UInt64)) (a : Auth) : Prop :=
  ∃ c now cert, (c, now) ∈ certs ∧ Dto.toCertificate c = .ok cert ∧ (a.issuedBy, a.trust) ∈ (Spec.issuers cert.chain).zip cert.chain

theorem Spec.StartCall.offers {certs : List (CertDto × UInt64)} {op : Op} (h : Spec.StartCall certs op) {q : TrustRelation}
    (hq : q ∈ op.offers) : ∃ a, q = .auth a ∧ Spec.Listed certs a := by
  rcases h with ⟨pk, rfl, -⟩ | ⟨c, now, cert, hm, hc, rfl⟩
  · cases hq
  · obtain ⟨p, hp, rfl⟩ := List.mem_map.mp hq
    exact ⟨_, rfl, c, now, cert, hm, hc, hp⟩

/-- **C85.** Starting the service again, with any list of certificates, at any times, and whatever fails on the way: registered roots keep their weight
factor; a stored revocation stays unless the list has a later trust of the same pair of keys; a stored trust stays unless it has expired at one of the
times, or the list has a later trust of the same pair. -/
theorem C85_restart_keeps {db : Db} (hr : Reachable db) (n : Node) (certs : List (CertDto × UInt64)) :
    let db' := (OnStart.run n certs db).2
    (∀ pk f, db.rootFactor pk = some f → db'.rootFactor pk = some f) ∧
    (∀ r, db.Stored (.revocation r) →
      (∀ a, Spec.Listed certs a → r.Covers a → a.trust.issuedAt.total ≤ r.revokedAt.total) → db'.Stored (.revocation r)) ∧
    (∀ b : Auth, db.Stored (.auth b) → (∀ p ∈ certs, Spec.Live b.trust (.ofSecs p.2)) →
      (∀ a, Spec.Listed certs a → a.issuedBy = b.issuedBy → a.trust.issuedFor = b.trust.issuedFor →
        a.trust.issuedAt.total ≤ b.trust.issuedAt.total) → db'.Stored (.auth b)) := by
  have hl := OnStart.run_later n certs db
  have key : ∀ x : TrustRelation, db.Stored x → (∀ b, x = .auth b → ∀ p ∈ certs, Spec.Live b.trust (.ofSecs p.2)) →
      (∀ a, Spec.Listed certs a → x.SamePair (.auth a) → a.trust.issuedAt.total ≤ x.issuedAt.total) →
      (OnStart.run n certs db).2.Stored x := by
    intro x hs hlive hold
    generalize (OnStart.run n certs db).2 = db' at hl
    induction hl with
    | refl => exact hs
    | weather fs _ ih => exact ih
    | @step db1 op hok hl ih =>
      refine (Op.run_steps (R := fun s s' : Db => s.Healthy ∧ s.Stored x → s'.Healthy ∧ s'.Stored x)
        ⟨fun _ h => h, fun _ _ _ h1 h2 h => h2 (h1 h), fun _ fs h => ⟨h.1.faults fs, h.2⟩⟩ op ?_ ?_ ?_ db1
          ⟨(hl.reachable hr).healthy, ih⟩).2
      · rintro now hnow s ⟨hh, h⟩
        refine ⟨hh.collect now, (Db.stored_collect now).mpr ⟨h, fun b e => ?_⟩⟩
        rcases hok with ⟨pk, rfl, -⟩ | ⟨c, t, cert, hm, -, rfl⟩
        · cases hnow
        · cases hnow
          exact hlive b e _ hm
      · rintro q hq - - s hn ⟨hh, h⟩
        obtain ⟨a, rfl, ha⟩ := hok.offers hq
        refine ⟨hh.put _, Db.stored_put.mpr (.inr ⟨h, fun hp => ?_⟩)⟩
        have hb := (Db.newer_iff' hh).mp hn x h hp
        exact absurd hb (Nat.not_lt.mpr (hold a ha hp))
      · rintro pk m - s ⟨hh, h⟩
        exact ⟨hh.addRoot pk (getWeightFactor_le m), h⟩
  refine ⟨fun pk f => ?_, fun r hs h => ?_, fun b hs hlive h => ?_⟩
  · refine C34_roots_never_lost (db := db) ?_ pk f
    generalize (OnStart.run n certs db).2 = db' at hl
    induction hl with
    | refl => exact .refl
    | step op _ _ ih => exact .step op trivial ih
    | weather fs _ ih => exact .weather fs ih
  · exact key _ hs (by simp) fun a ha hp => h a ha ⟨hp.2.symm, hp.1.symm⟩
  · exact key _ hs (fun b' e => by cases e; exact hlive) fun a ha hp => h a ha hp.2.symm hp.1.symm

theorem Dto.toTrust_whole {d : TrustDto} {t : Trust} (h : Dto.toTrust d = .ok t) : t.WholeSeconds := by
  unfold Dto.toTrust at h
  rcases h1 : Dto.keyOfPeerId d.issuedFor with k | _ | _ | _ <;> rw [h1] at h <;> try cases h
  rcases h2 : Dto.readSignature d.signature d.sigType with sg | _ | _ | _ <;> rw [h2] at h <;> cases h
  exact ⟨rfl, rfl⟩

theorem Dto.collect_whole {ds : List TrustDto} : ∀ {ts : List Trust}, Dto.collect Dto.toTrust ds = .ok ts → ∀ t ∈ ts, t.WholeSeconds := by
  induction ds with
  | nil => intro ts h; cases h; simp
  | cons d ds ih =>
    intro ts h
    unfold Dto.collect at h
    rcases h1 : Dto.toTrust d with t | _ | _ | _ <;> rw [h1] at h <;> try cases h
    rcases h2 : Dto.collect Dto.toTrust ds with ts' | _ | _ | _ <;> rw [h2] at h <;> cases h
    exact List.forall_mem_cons.mpr ⟨Dto.toTrust_whole h1, ih h2⟩

theorem Dto.toCertificate_whole {d : CertDto} {c : Certificate} (h : Dto.toCertificate d = .ok c) : ∀ t ∈ c.chain, t.WholeSeconds := by
  unfold Dto.toCertificate at h
  rcases h1 : Dto.collect Dto.toTrust d.chain with ts | _ | _ | _ <;> rw [h1] at h <;> cases h
  exact Dto.collect_whole h1

theorem Spec.Listed.whole {certs : List (CertDto × UInt64)} {a : Auth} (h : Spec.Listed certs a) : a.trust.WholeSeconds := by
  obtain ⟨c, now, cert, -, hc, hm⟩ := h
  exact Dto.toCertificate_whole hc _ (List.of_mem_zip hm).2

/-- **C85**: what the script adds. Every relation that was not there before is a trust of the list that verifies under the key of its issuer at one of the
times, and the roots change only if the script was started by the creator of the service. -/
theorem C85_restart_adds_only (n : Node) (certs : List (CertDto × UInt64)) (db : Db) :
    let db' := (OnStart.run n certs db).2
    (∀ x, db'.Stored x → db.Stored x ∨ ∃ a, x = .auth a ∧ Spec.Listed certs a ∧ ∃ p ∈ certs, a.trust.verify a.issuedBy (.ofSecs p.2) = .ok ()) ∧
    (n.init ≠ n.creator → db'.roots = db.roots) := by
  constructor
  · intro x
    have hl := OnStart.run_later n certs db
    generalize (OnStart.run n certs db).2 = db' at hl ⊢
    induction hl with
    | refl => exact .inl
    | weather fs _ ih => exact ih
    | @step db1 op hok hl ih =>
      intro hx
      have := Op.run_steps (R := fun s s' : Db => s'.Stored x → s.Stored x ∨ ∃ a, x = .auth a ∧ Spec.Listed certs a ∧
          ∃ p ∈ certs, a.trust.verify a.issuedBy (.ofSecs p.2) = .ok ())
        ⟨fun _ h => .inl h, fun _ _ _ h1 h2 h => (h2 h).elim h1 .inr, fun _ fs h => .inl h⟩ op ?_ ?_ ?_ db1 hx
      · exact this.elim ih .inr
      · exact fun now _ s h => .inl ((Db.stored_collect now).mp h).1
      · intro q hq _ hv s _ h
        rcases Db.stored_put.mp h with rfl | h
        · obtain ⟨a, rfl, ha⟩ := hok.offers hq
          have hw := ha.whole
          have e : (TrustRelation.auth a).trunc = .auth a := by
            obtain ⟨⟨pk, ex, sg, is⟩, k⟩ := a
            show TrustRelation.auth ⟨⟨pk, ex.trunc, sg, is.trunc⟩, k⟩ = _
            rw [show ex.trunc = ex from Dur.Whole.trunc_eq hw.1, show is.trunc = is from Dur.Whole.trunc_eq hw.2]
          refine .inr ⟨a, e, ha, ?_⟩
          rcases hok with ⟨pk, rfl, -⟩ | ⟨c, now, cert, hm, hc, rfl⟩
          · cases hq
          · exact ⟨_, hm, hv a _ rfl rfl⟩
        · exact .inl h.1
      · exact fun _ _ _ _ h => .inl h
  · intro ho
    have ht : ∀ a b c : Db, b.roots = a.roots → c.roots = b.roots → c.roots = a.roots := fun _ _ _ h1 h2 => h2.trans h1
    refine Steps.bind (R := fun s s' : Db => s'.roots = s.roots) ht ?_ (fun _ => Steps.bind ht ?_ fun _ => Steps.pure (R := fun s s' : Db => s'.roots = s.roots) (fun _ => rfl) _) db
    · intro s
      unfold Service.setRoot
      rw [if_neg (fun h => ho h.symm)]
      rfl
    · intro s
      have hl := OnStart.insertAll_later (ok := fun op => ∀ pk m, op ≠ .setRoot pk m) n certs (fun _ _ _ _ _ _ h => by cases h) s
      generalize (OnStart.insertAll n certs s).2 = s' at hl
      induction hl with
      | refl => rfl
      | weather fs _ ih => exact ih
      | step op hok _ ih => exact (C34_only_set_root op hok _).trans ih

end TG
