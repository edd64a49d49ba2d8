/-
Exactly how many SQL statements the other calls execute.
-/
import Verif.Proofs.Statements
import Verif.Proofs.Update

namespace TG
open TG.Sqlite
variable [Env]

omit [Env] in
theorem storage_bind {α β : Type} (x : M Db SqlError α) (f : α → M Db SqlError β) :
    TrustGraph.storage (S := Db) (x >>= f) = TrustGraph.storage (S := Db) x >>= fun a => TrustGraph.storage (S := Db) (f a) := by
  funext db
  unfold TrustGraph.storage
  rw [M.bind_run]
  unfold M.mapErr
  rw [M.bind_run]
  rcases h : x db with ⟨o, s⟩
  cases o <;> rfl

namespace Db
variable {db : Db}

theorem Healthy.under (hh : db.Healthy) (fs : List Bool) : (db.under fs).Healthy := ⟨hh.rows, hh.unique, hh.roots⟩

theorem rootFactor_executes (hh : db.Healthy) (pk : PublicKey) :
    Executes (TrustGraph.storage (S := Db) (Storage.getRootWeightFactor pk)) db 1 (db.rootFactor pk) db := .stmt fun fs => by
  unfold Db.rootFactor
  show (match db.roots.find? _ with | none => _ | some row => _) = _
  rcases h : db.roots.find? (fun r => decide (r.publicKey = keyText pk)) with _ | row
  · rw [h]; rfl
  · obtain ⟨pk', wf, hw, rfl⟩ := hh.roots row (List.mem_of_find?_eq_some h)
    rw [h]
    dsimp only
    rw [if_pos ⟨by omega, by omega⟩]
    rfl

theorem weightFactorLoop_executes (hh : db.Healthy) (cs : List Certificate) (h : ∀ c ∈ cs, Weighable db c) (wf : Nat) :
    Executes (TrustGraph.weightFactorLoop cs wf) db cs.length (cs.foldl (fun w c => min w (db.factorOf c)) wf) db := by
  induction cs generalizing wf with
  | nil => exact .pure _
  | cons c cs ih =>
    have hc := h c (by simp)
    unfold TrustGraph.weightFactorLoop
    rcases hch : c.chain with _ | ⟨t, ts⟩
    · exact absurd hch hc.ne
    · obtain ⟨f, hfac⟩ := Option.isSome_iff_exists.mp (hc.root t (by rw [hch]; rfl))
      have hs := hc.short
      rw [hch] at hs
      dsimp only
      have hx := rootFactor_executes hh t.issuedFor
      rw [hfac] at hx
      have e : db.factorOf c = f + (ts.length + 1 - 1) := by
        unfold factorOf; rw [hch]; simp [hfac]
      have := ih (fun x hx => h x (List.mem_cons_of_mem _ hx)) (min wf (db.factorOf c))
      rw [List.foldl_cons]
      refine (hx.bind (m := cs.length) ?_).mono (by rw [List.length_cons]; omega)
      rw [Outcome.ofOption_some]
      refine (Executes.bind (n := 0) (Executes.pure f) ?_).mono (Nat.zero_add _)
      rw [chainFactor_eq (hh.rootFactor_le hfac) (by simp) hs]
      refine (Executes.bind (n := 0) (Executes.pure (f + (ts.length + 1 - 1))) ?_).mono (Nat.zero_add _)
      rw [← e]
      exact this

theorem certificatesWeightFactor_executes (hh : db.Healthy) (cs : List Certificate) (h : ∀ c ∈ cs, Weighable db c) :
    ∃ r, Executes (TrustGraph.certificatesWeightFactor cs) db cs.length r db := by
  rcases cs with _ | ⟨c, cs⟩
  · exact ⟨_, .pure _⟩
  · refine ⟨some ((c :: cs).foldl (fun w c => min w (db.factorOf c)) (2 ^ 32 - 1)), ?_⟩
    change Executes (TrustGraph.weightFactorLoop (c :: cs) (2 ^ 32 - 1) >>= fun wf => pure (some wf)) db _ _ db
    exact (weightFactorLoop_executes hh (c :: cs) h _).bind (m := 0) (.pure _)

theorem weight_executes (hh : db.Healthy) (hn : db.relations.length + 16 < 2 ^ 32) {pk : PublicKey} {now : Dur} {n : Nat}
    (hc : Executes (TrustGraph.getAllCerts pk now) db n (db.certs pk now) (db.collect now)) :
    ∃ w, Executes (TrustGraph.weight pk now) db (1 + n + (db.certs pk now).length) w (db.collect now) := by
  obtain ⟨r, hr⟩ := certificatesWeightFactor_executes (hh.collect now) (db.certs pk now) (certs_weighable hh hn pk now)
  cases r with
  | none =>
    exact ⟨_, Executes.mono (n := 1 + (n + ((db.certs pk now).length + 0)))
      ((rootFactor_executes hh pk).bind (hc.bind (hr.bind (.pure _)))) (by omega)⟩
  | some f =>
    exact ⟨_, Executes.mono (n := 1 + (n + ((db.certs pk now).length + 0)))
      ((rootFactor_executes hh pk).bind (hc.bind (hr.bind (.pure _)))) (by omega)⟩

theorem weightFrom_executes (hh : db.Healthy) (hn : db.relations.length + 16 < 2 ^ 32) {pk issuer : PublicKey} {now : Dur} {n : Nat}
    (hc : Executes (TrustGraph.getAllCerts pk now) db n (db.certs pk now) (db.collect now)) :
    ∃ w, Executes (TrustGraph.weightFrom pk issuer now) db (n + ((db.certs pk now).filter (fun c => c.chain.any (fun t => t.issuedFor == issuer))).length) w
      (db.collect now) := by
  obtain ⟨r, hr⟩ := certificatesWeightFactor_executes (hh.collect now) ((db.certs pk now).filter (fun c => c.chain.any (fun t => t.issuedFor == issuer)))
    (fun c hcm => certs_weighable hh hn pk now c (List.mem_of_mem_filter hcm))
  have hfrom : Executes (TrustGraph.getAllCertsFrom pk issuer now) db n ((db.certs pk now).filter (fun c => c.chain.any (fun t => t.issuedFor == issuer)))
      (db.collect now) := hc.bind (m := 0) (.pure _)
  cases r with
  | none => exact ⟨0, hfrom.bind (hr.bind (m := 0) (.pure _))⟩
  | some f => exact ⟨max 0 (getWeightFromFactor f), hfrom.bind (hr.bind (m := 0) (.pure _))⟩

open Classical in
theorem updateRelation_executes (hh : db.Healthy) (r : TrustRelation) :
    Executes (TrustGraph.storage (S := Db) (Sqlite.updateRelation r)) db (if db.Newer r then 2 else 1) () (db.update r) := by
  have hput : Executes (TrustGraph.storage (S := Db) (Sqlite.insert r)) db 1 () (db.put r) := .stmt fun _ => rfl
  have hpure : Executes (TrustGraph.storage (S := Db) (pure () : M Db SqlError Unit)) db 0 () db := ⟨fun _ => rfl, fun _ h => absurd h (Nat.not_lt_zero _), rfl⟩
  unfold Sqlite.updateRelation Db.update
  rw [storage_bind]
  have hget : ∀ old, Sqlite.getRelation r.issuedFor r.issuedBy (db.under []) = (.ok old, db.under []) →
      Executes (TrustGraph.storage (S := Db) (Sqlite.getRelation r.issuedFor r.issuedBy)) db 1 old db := by
    intro old h
    have : ∀ fs, Sqlite.getRelation r.issuedFor r.issuedBy (db.under (false :: fs)) = (.ok old, db.under fs) := fun fs => by
      unfold Sqlite.getRelation at h ⊢
      unfold Sqlite.stmt at h ⊢
      simp only [Db.under] at h ⊢
      revert h
      cases (db.relations.find? _) with
      | none => intro h; cases h; rfl
      | some row =>
        intro h
        have := congrArg Prod.fst h
        exact congrArg (fun o => (o, ({ db with faults := fs } : Db))) this
    exact ⟨fun fs => Search.storage_ok (this fs), fun k hk fs => by
      obtain rfl : k = 0 := by omega
      rfl, Search.storage_ok h⟩
  by_cases h : db.Newer r
  · rw [if_pos h, if_pos h]
    rw [hh.newer_iff] at h
    rcases hrow : db.row? r.issuedFor r.issuedBy with _ | row
    · refine (hget none (getRelation_eq_none (db := db.under []) rfl hrow)).bind (m := 1) ?_
      exact hput
    · obtain ⟨old, hs, h1, h2, rfl⟩ := hh.row?_eq_some.mp hrow
      have hx := hget (some old) (by rw [← h1, ← h2]; exact getRelation_eq_some (hh.under []) rfl hs)
      have hl := h old hs h1 h2
      refine hx.bind (m := 1) ?_
      cases old with
      | auth a => dsimp only; rw [if_pos (show a.trust.issuedAt.lt r.issuedAt = true from hl)]; exact hput
      | revocation a => dsimp only; rw [if_pos (show a.revokedAt.lt r.issuedAt = true from hl)]; exact hput
  · rw [if_neg h, if_neg h]
    rw [hh.newer_iff] at h
    push Not at h
    obtain ⟨old, hs, h1, h2, hl⟩ := h
    have hx := hget (some old) (by rw [← h1, ← h2]; exact getRelation_eq_some (hh.under []) rfl hs)
    refine hx.bind (m := 0) ?_
    cases old with
    | auth a => dsimp only; rw [if_neg (show ¬ a.trust.issuedAt.lt r.issuedAt = true from hl)]; exact hpure
    | revocation a => dsimp only; rw [if_neg (show ¬ a.revokedAt.lt r.issuedAt = true from hl)]; exact hpure

open Classical in
theorem addTrust_executes (hh : db.Healthy) {t : Trust} {a : PublicKey} {now : Dur} {n w : Nat} (hv : t.verify a now = .ok ())
    (hw : Executes (TrustGraph.weight a now) db n w (db.collect now)) :
    Executes (TrustGraph.addTrust t a now) db
      (n + if (if a = t.issuedFor then w else w / 2) = 0 then 0 else if (db.collect now).Newer (.auth ⟨t, a⟩) then 2 else 1)
      (if a = t.issuedFor then w else w / 2)
      (if (if a = t.issuedFor then w else w / 2) = 0 then db.collect now else (db.collect now).update (.auth ⟨t, a⟩)) := by
  have hnext : Executes (TrustGraph.getNextWeight a t.issuedFor now) db n (if a = t.issuedFor then w else w / 2) (db.collect now) := by
    unfold TrustGraph.getNextWeight
    refine (hw.bind (m := 0) ?_)
    split <;> exact .pure _
  unfold TrustGraph.addTrust
  rw [hv, Outcome.mapErr_ok]
  refine (Executes.bind (n := 0) (Executes.pure ()) (hnext.bind ?_)).mono (Nat.zero_add _)
  generalize (if a = t.issuedFor then w else w / 2) = y
  by_cases hy : y = 0
  · subst hy
    rw [if_pos rfl, if_pos rfl, if_pos rfl]
    exact .pure _
  · rw [if_neg hy, if_neg hy, if_neg hy]
    have h := updateRelation_executes (hh.collect now) (.auth ⟨t, a⟩)
    exact Executes.bind (m := 0) (f := fun _ => pure y) h (.pure y)

open Classical in
theorem revoke_executes (hh : db.Healthy) {r : Revocation} (hv : r.verify = .ok ()) :
    Executes (TrustGraph.revoke r) db (if db.Newer (.revocation r) then 2 else 1) () (db.update (.revocation r)) := by
  unfold TrustGraph.revoke
  rw [hv, Outcome.mapErr_ok]
  exact (Executes.bind (n := 0) (Executes.pure ()) (updateRelation_executes hh _)).mono (Nat.zero_add _)

end Db
end TG
