/-
Property C148: the revocations that the service gives out.
-/
import Verif.Props.CompareService
import Verif.Props.StatementsCalls

namespace TG
open Spec SqlStorage

section
variable [Env]

/-- A stored revocation stays, as long as nothing newer is submitted about its two keys. -/
theorem Later.keepsRevocation {P : Op → Prop} {x : Revocation} {db db' : Db} (hl : Later P db db') (hh : db.Healthy)
    (hq : ∀ op q, P op → op.Submits q → q.SamePair (.revocation x) → q.issuedAt.total ≤ x.revokedAt.total) :
    db.Stored (.revocation x) → db'.Stored (.revocation x) := by
  have hQ : Quiet (fun d d' : Db => d.Healthy → d.Stored (.revocation x) → d'.Healthy ∧ d'.Stored (.revocation x)) :=
    ⟨fun _ h1 h2 => ⟨h1, h2⟩, fun _ _ _ h1 h2 h h' => h2 (h1 h h').1 (h1 h h').2, fun _ fs h h' => ⟨h.faults fs, h'⟩⟩
  suffices hs : db.Healthy → db.Stored (.revocation x) → db'.Healthy ∧ db'.Stored (.revocation x) from fun h => (hs hh h).2
  clear hh
  induction hl with
  | refl => exact fun h h' => ⟨h, h'⟩
  | weather fs _ ih => exact hQ.trans _ _ _ ih (hQ.faults _ fs)
  | @step d op hok _ ih =>
    refine hQ.trans _ _ _ ih (Op.run_steps hQ op ?_ ?_ ?_ d)
    · intro t _ d hd hx
      exact ⟨hd.collect t, (Db.stored_collect t).mpr ⟨hx, fun b e => by cases e⟩⟩
    · intro q hoff hv _ d hnew hd hx
      refine ⟨hd.put q, Db.stored_put.mpr (.inr ⟨hx, fun h => ?_⟩)⟩
      have h1 := (news_iff hd).mp hnew _ hx h
      have h2 := hq op q hok ⟨hoff, hv⟩ ⟨h.1.symm, h.2.symm⟩
      exact absurd h1 (by show ¬ x.revokedAt.total < _; omega)
    · rintro pk n rfl d hd hx
      exact ⟨hd.addRoot pk (by unfold getWeightFactor maxWeightFactor; omega), hx⟩

end

variable [LawfulEnv]

/-- A revocation that was taken in is stored, if everything else that is submitted about its two keys is older. -/
theorem Spec.Took.storedRevocation {tr : List Event} {db : Db} {x : Revocation} (h : Acts ⟨[], [], []⟩ tr db) (hk : Took tr (.revocation x))
    (hq : ∀ op q, Made tr op → op.Submits q → q.SamePair (.revocation x) → q ≠ .revocation x → q.issuedAt.total < x.revokedAt.total) :
    db.Stored (.revocation x) := by
  have hle : ∀ op q, Made tr op → op.Submits q → q.SamePair (.revocation x) → q.issuedAt.total ≤ x.revokedAt.total := fun op q h1 h2 h3 => by
    by_cases e : q = .revocation x
    · rw [e]
      exact le_refl _
    · exact le_of_lt (hq op q h1 h2 h3 e)
  cases hk with
  | @revocation cp d t r x he hs hx =>
    obtain ⟨pre, post, rfl⟩ := List.append_of_mem he
    obtain ⟨m1, h1, hz⟩ := h.split _ _ rfl
    obtain ⟨m2, h2, h3⟩ := hz.split [_] _ rfl
    have up : ∀ op, Made post op → Made (pre ++ .call cp (.revoke d t) (.ok r) :: post) op := fun op ⟨cp, c, o, hm, h⟩ =>
      ⟨cp, c, o, List.mem_append_right _ (List.mem_cons_of_mem _ hm), h⟩
    have r1 := h1.reachable .init
    refine Later.keepsRevocation h3.later (h2.reachable r1).healthy (fun op q ho => hle op q (up op ho)) ?_
    have hl2 : Later (Made (pre ++ .call cp (.revoke d t) (.ok r) :: post)) ⟨[], [], []⟩ m2 :=
      (h1.later.mono fun op ⟨cp, c, o, hm, h⟩ => ⟨cp, c, o, List.mem_append_left _ hm, h⟩).trans
        (h2.later.mono fun op ⟨cp, c, o, hm, h⟩ => ⟨cp, c, o, List.mem_append_right _ (List.mem_singleton.mp hm ▸ List.mem_cons_self ..), h⟩)
    obtain ⟨ops, h6, h7⟩ := hl2.history
    rcases h2.single with ⟨p, hp, -⟩ | ⟨h, -⟩ | ⟨op, fs, fs1, w, dd, hal, hm, hcall, hr, rfl⟩
    · cases hp
    · rw [hs] at h; cases h
    cases hm with
    | revoke hx' =>
      cases hx.unique hx'
      obtain ⟨w, e, rfl⟩ := M.bind_pure_ok hcall
      obtain ⟨⟨q, h4, h5, h6'⟩, -⟩ := C76_revoke_takes_effect_partial (r1.weather fs) e
      have hwh : (TrustRelation.revocation x).trunc = .revocation x := TrustRelation.Whole.trunc_eq (show x.revokedAt.Whole by rw [hx.2.2.2]; rfl)
      rcases h6' with rfl | h6'
      · rw [hwh] at h4
        exact h4
      · obtain ⟨op, ho, q0, hq0, hv, rfl⟩ := (C72_provenance h6).1 q h4
        by_cases e0 : q0 = .revocation x
        · rw [e0, hwh] at h4
          exact h4
        · have h8 := hq op q0 (h7 op ho) ⟨hq0, hv⟩ (by simpa [TrustRelation.SamePair] using h5) e0
          have h9 : q0.trunc.issuedAt.total ≤ q0.issuedAt.total := by
            have : q0.trunc.issuedAt = q0.issuedAt.trunc := by cases q0 <;> rfl
            rw [this]
            exact Dur.ofSecs_total_le _
          omega

/-- **C148.**  What `export_revocations` answers, from what the service was told before.  Each record stands for a revocation of the peer that was handed to `revoke` in a record that says
the same, with a valid signature of its issuer; there is one record at most for each issuer; and each revocation of the peer with which `revoke` succeeded is there, if all else
that was submitted about its two keys is older. -/
theorem C148_exported {faulty : Prop} {tr : List Event} {cp : CallParams} {p : Str} {K : PublicKey} {r : Res Payload} {ds : List RevocationDto}
    {i : Option Instance} {f : Sql.File} (hw : Env.wasm = true) (h : ServiceRun faulty (tr ++ [.call cp (.exportRevocations p) (.ok r)]) i f)
    (hK : Names p K) (hs : r.success = true) (hr : r.payload = .revocations ds) :
    (∀ d ∈ ds, ∃ x, IsRevocation d x ∧ x.pk = K ∧ x.verify = .ok () ∧ ∃ cp' d' t o, Event.call cp' (.revoke d' t) o ∈ tr ∧ IsRevocation d' x) ∧
    ds.Pairwise (fun d d' => d.revokedBy ≠ d'.revokedBy) ∧
    ∀ x, Took tr (.revocation x) → x.pk = K →
      (∀ op q, Made tr op → op.Submits q → q.SamePair (.revocation x) → q ≠ .revocation x → q.issuedAt.total < x.revokedAt.total) → Dto.ofRevocation x ∈ ds := by
  obtain ⟨z, hz, -⟩ := C125_library h
  obtain ⟨m, h1, h2⟩ := hz.split _ _ rfl
  rcases h2.single with ⟨x, hx, -⟩ | ⟨hx, -⟩ | ⟨op, fs, fs', a, s, hal, hmean, hcall, rfl, -⟩
  · cases hx
  · rw [hs] at hx; cases hx
  cases hmean with
  | exportRevocations hX =>
  cases hX.unique hK
  obtain ⟨rs, e, rfl⟩ := M.bind_pure_ok hcall
  cases hr
  have hre := (h1.reachable .init).weather fs
  obtain ⟨hnd, hmem⟩ := C37_revocations_exact hre.healthy e
  obtain ⟨ops, h6, h7⟩ := (h1.later.weather fs).history
  refine ⟨?_, ?_, ?_⟩
  · intro d hd
    obtain ⟨x, hx, rfl⟩ := List.mem_map.mp hd
    obtain ⟨hst, rfl⟩ := (hmem x).mp hx
    obtain ⟨op, ho, q, hq, hv, hx'⟩ := (C72_provenance h6).1 _ hst
    cases q with
    | auth => cases hx'
    | revocation y =>
      obtain ⟨cp', c, o, he, -, hm⟩ := h7 op ho
      cases hm with
      | revoke hy =>
        cases List.mem_singleton.mp hq
        have hwh : y.revokedAt.Whole := by rw [hy.2.2.2]; rfl
        rw [TrustRelation.Whole.trunc_eq (r := .revocation y) hwh] at hx'
        cases hx'
        exact ⟨x, ⟨names_toPeerId hw _, names_toPeerId hw _, ⟨Base58.decode_encode _, rfl⟩, (by show x.revokedAt = .ofSecs x.revokedAt.secs; rw [hy.2.2.2]; rfl)⟩, rfl, (by unfold Revocation.verify; rw [show x.revokedBy.verify _ _ = .ok () from hv]; rfl), cp', _, _, o, he, hy⟩
      | _ => simp [Op.offers] at hq
  · rw [List.pairwise_map]
    refine hnd.imp_of_mem fun {x y} hx hy hne e => hne ?_
    have hk := (names_toPeerId hw x.revokedBy).unique (by
      have e' : x.revokedBy.toPeerId.toBase58 = y.revokedBy.toPeerId.toBase58 := e
      rw [e']
      exact names_toPeerId hw y.revokedBy)
    obtain ⟨h1, h3⟩ := (hmem x).mp hx
    obtain ⟨h2, h4⟩ := (hmem y).mp hy
    have := hre.healthy.stored_unique h1 h2 (h3.trans h4.symm) hk
    cases this
    rfl
  · intro x hx hk hq
    exact List.mem_map_of_mem ((hmem x).mpr ⟨show m.Stored _ from Took.storedRevocation h1 hx hq, hk⟩)

end TG
