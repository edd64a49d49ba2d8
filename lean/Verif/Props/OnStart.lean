/-
Property C83: the start script.
-/
import Verif.Props.Import
import Verif.Props.Restart
import Verif.Props.AquaFlow

namespace TG
open TG.Service
variable [LawfulEnv]

omit [LawfulEnv] in
/-- `set_root` without faults. -/
theorem setRoot_noFaults [Env] {db : Db} (hf : db.NoFaults) (pk : PublicKey) (m : Nat) :
    TrustGraph.setRoot pk m db = (.ok (), db.addRoot pk (getWeightFactor m)) := by
  unfold TrustGraph.setRoot
  apply Search.storage_ok
  show Sqlite.setRootWeightFactor pk (getWeightFactor m) db = _
  unfold Sqlite.setRootWeightFactor
  rw [Db.stmt_noFaults hf]
  rfl

/-- A certificate as it is written in on_start.json. -/
def Spec.toStart (p : Certificate × UInt64) : CertDto × UInt64 := (Dto.ofCertificate p.1, p.2)

/-- The time at which it is imported. -/
def Spec.atTime (p : Certificate × UInt64) : Certificate × Dur := (p.1, .ofSecs p.2)

theorem insertAll_ok (n : Node) (cs : List (Certificate × UInt64))
    (hk : ∀ p ∈ cs, ∀ t ∈ p.1.chain, t.issuedFor.NotRsa ∧ t.WholeSeconds) :
    ∀ {db d : Db}, addAll (cs.map Spec.atTime) db = (.ok (), d) → OnStart.insertAll n (cs.map Spec.toStart) db = (.ok [], d) := by
  induction cs with
  | nil => intro db d h; cases h; rfl
  | cons p cs ih =>
    intro db d h
    change (do TrustGraph.add p.1 (.ofSecs p.2); addAll (cs.map Spec.atTime) : M Db TrustGraphError Unit) db = _ at h
    rcases ha : TrustGraph.add p.1 (.ofSecs p.2) db with ⟨_ | _ | _ | _, d1⟩
    · rw [M.bind_run_ok ha] at h
      have h1 : Service.insertCert (({ n with now := p.2 } : Node).call [[], ({ n with now := p.2 } : Node).clock]) (Dto.ofCertificate p.1) p.2 db
          = (.ok ⟨true, none, ()⟩, d1) := by
        have := (C75_updates (({ n with now := p.2 } : Node).call [[], ({ n with now := p.2 } : Node).clock]) db).2.2.2.1 p.1 p.2
          (hk p (.head _))
        unfold Spec.PassesOn at this
        rw [ha] at this
        exact this
      show OnStart.insertAll n ((Dto.ofCertificate p.1, p.2) :: cs.map Spec.toStart) db = _
      unfold OnStart.insertAll
      rw [M.bind_run_ok h1, M.bind_run_ok (ih (fun q hq => hk q (.tail _ hq)) h)]
      rfl
    all_goals
      rw [M.bind_run, ha] at h
      cases h

omit [LawfulEnv] in
theorem addAll_reachable [Env] (cs : List (Certificate × Dur)) : ∀ {db : Db}, Reachable db → Reachable (addAll cs db).2 := by
  have : Steps (fun s s' : Db => Reachable s → Reachable s') (addAll cs) := by
    induction cs with
    | nil => exact .pure (fun _ h => h) _
    | cons p cs ih => exact Steps.bind (fun _ _ _ h1 h2 h => h2 (h1 h)) (fun db h => h.step (.add p.1 p.2)) fun _ => ih
  exact fun {db} h => this db h

/-- How the script runs for the owner when all certificates can be imported. -/
theorem onStart_run {n : Node} (ho : n.init = n.creator) {root : PublicKey} (hroot : root.toPeerId.toBase58 = Aqua.fluenceRootPeerId)
    (hrsa : root.NotRsa) {db : Db} (hr : Reachable db) (hf : db.NoFaults) (cs : List (Certificate × UInt64))
    (hk : ∀ p ∈ cs, ∀ t ∈ p.1.chain, t.issuedFor.NotRsa)
    (hb : Spec.Bundle (db.addRoot root 11) (cs.map Spec.atTime))
    (hn : db.relations.length + (cs.map (·.1.chain.length)).sum + 16 < 2 ^ 32) :
    ∃ d, OnStart.run n (cs.map Spec.toStart) db = (.ok [.true], d) ∧ Imported (db.addRoot root 11) (cs.map Spec.atTime) d ∧ Reachable d := by
  have hset : TrustGraph.setRoot root 5 db = (.ok (), db.addRoot root 11) := setRoot_noFaults hf root 5
  have hr1 : Reachable (db.addRoot root 11) := by
    have := hr.step (.setRoot root 5)
    rwa [show Op.run (.setRoot root 5) db = db.addRoot root 11 from congrArg Prod.snd hset] at this
  have hsum : ((cs.map Spec.atTime).map (·.1.chain.length)).sum = (cs.map (·.1.chain.length)).sum := by
    rw [List.map_map]; rfl
  obtain ⟨d, h1, h2⟩ := import_addAll hr1.healthy (show (db.addRoot root 11).NoFaults from hf) hb (by rw [hsum]; exact hn)
  have hs : Service.setRoot (n.call [[], []]) Aqua.fluenceRootPeerId OnStart.maxChainLen db = (.ok ⟨true, none, ()⟩, db.addRoot root 11) := by
    have := (C75_updates (n.call [[], []]) db).1 root OnStart.maxChainLen hrsa ho
    unfold Spec.PassesOn at this
    rw [show OnStart.maxChainLen.toNat = 5 from rfl, hset, hroot] at this
    exact this
  have hw : ∀ p ∈ cs, ∀ t ∈ p.1.chain, t.issuedFor.NotRsa ∧ t.WholeSeconds := fun p hp t ht =>
    ⟨hk p hp t ht, (hb.each _ (List.mem_map_of_mem hp) _ (List.mem_map_of_mem hp)).whole t ht⟩
  refine ⟨d, ?_, h2, ?_⟩
  · unfold OnStart.run
    rw [M.bind_run_ok hs, M.bind_run_ok (insertAll_ok n cs hw h1)]
    rfl
  · have := addAll_reachable (cs.map Spec.atTime) hr1
    rwa [h1] at this

/-- **C83.** When the creator of the service runs the start script with certificates that can be imported after `set_root(root, 5)`, it reports nothing but
`true`, and afterwards every certificate of the list is returned by `get_all_certs` of its last key, at any time at which its trusts live. -/
theorem C83_on_start {n : Node} (ho : n.init = n.creator) {root : PublicKey} (hroot : root.toPeerId.toBase58 = Aqua.fluenceRootPeerId)
    (hrsa : root.NotRsa) {db d0 : Db} (hr : Reachable db) (hf : db.NoFaults) (hset : TrustGraph.setRoot root 5 db = (.ok (), d0))
    (cs : List (Certificate × UInt64)) (hk : ∀ p ∈ cs, ∀ t ∈ p.1.chain, t.issuedFor.NotRsa)
    (hb : Spec.Bundle d0 (cs.map Spec.atTime))
    (hn : db.relations.length + (cs.map (·.1.chain.length)).sum + 16 < 2 ^ 32) :
    ∃ d, OnStart.run n (cs.map Spec.toStart) db = (.ok [.true], d) ∧ (d.rootFactor root).isSome ∧
      ∀ p ∈ cs, ∀ last, p.1.chain.getLast? = some last → ∀ later : Dur, (∀ t ∈ p.1.chain, Spec.Live t later) →
        ∃ certs s, TrustGraph.getAllCerts last.issuedFor later d = (.ok certs, s) ∧ p.1 ∈ certs := by
  rw [setRoot_noFaults hf] at hset
  obtain ⟨-, rfl⟩ := Prod.mk.injEq .. ▸ hset
  obtain ⟨d, h1, h2, -⟩ := onStart_run ho hroot hrsa hr hf cs hk hb hn
  refine ⟨d, h1, ?_, fun p hp last hl later hlive => ?_⟩
  · rw [h2.rootFactor, Db.rootFactor_isSome]
    exact ⟨⟨keyText root, (11 : Nat)⟩, List.mem_append_right _ (List.mem_singleton.mpr rfl), rfl⟩
  · rw [List.getLast?_eq_getElem?] at hl
    have hp' := List.mem_map_of_mem (f := Spec.atTime) hp
    exact ⟨_, _, Db.getAllCerts_eq h2.healthy h2.noFaults _ _,
      (Db.mem_certs_iff h2.healthy _ _ _).mpr (h2.admissible hp' (hb.each _ hp' _ hp') hlive hl)⟩

omit [LawfulEnv] in
/-- `add` of a certificate whose root trust has expired. -/
theorem add_expired [Env] {c : Certificate} {now : Dur} {t : Trust} (ht : c.chain[0]? = some t) (he : t.expiresAt.total < now.total) (db : Db) :
    TrustGraph.add c now db = (.err (.trustVerificationError .expired), db) := by
  rcases hc : c.chain with _ | ⟨a, ts⟩
  · rw [hc] at ht; cases ht
  · rw [hc] at ht
    cases ht
    have hv : t.verify t.issuedFor now = .err .expired := by
      unfold Trust.verify
      rw [if_pos (Dur.lt_iff.mpr he)]
    unfold TrustGraph.add
    rw [hc]
    show TrustGraph.addLoop now t.issuedFor (t :: ts) db = _
    unfold TrustGraph.addLoop TrustGraph.addTrust
    rw [hv]
    rfl

/-- **C83**, certificates whose root trust has expired (as in the shipped list, after 2025-01-25 18:07:48 UTC): the script reports an error for each of
them, then `true`; it sets the root and stores nothing else. -/
theorem C83_on_start_expired {n : Node} (ho : n.init = n.creator) {root : PublicKey} (hroot : root.toPeerId.toBase58 = Aqua.fluenceRootPeerId)
    (hrsa : root.NotRsa) {db d0 : Db} (hset : TrustGraph.setRoot root 5 db = (.ok (), d0)) (cs : List (Certificate × UInt64))
    (hk : ∀ p ∈ cs, ∀ t ∈ p.1.chain, t.issuedFor.NotRsa ∧ t.WholeSeconds)
    (he : ∀ p ∈ cs, ∃ t, p.1.chain[0]? = some t ∧ t.expiresAt.secs < p.2) :
    OnStart.run n (cs.map Spec.toStart) db =
      (.ok (cs.map (fun _ => .error (some (.tgError (.trustVerificationError .expired)))) ++ [.true]), d0) := by
  have hins : ∀ d : Db, OnStart.insertAll n (cs.map Spec.toStart) d
      = (.ok (cs.map (fun _ => .error (some (.tgError (.trustVerificationError .expired))))), d) := by
    intro d
    clear hset
    induction cs with
    | nil => rfl
    | cons p cs ih =>
      obtain ⟨t, ht, hlt⟩ := he p (.head _)
      have hw := (hk p (.head _) t (List.mem_of_getElem? ht)).2
      have ha := add_expired (now := .ofSecs p.2) ht (by
        have h1 : t.expiresAt.nanos.val = 0 := by rw [show t.expiresAt.nanos = 0 from hw.1]; rfl
        have h2 := UInt64.lt_iff_toNat_lt.mp hlt
        show t.expiresAt.secs.toNat * 1000000000 + t.expiresAt.nanos.val < p.2.toNat * 1000000000 + 0
        omega) d
      have h1 : Service.insertCert (({ n with now := p.2 } : Node).call [[], ({ n with now := p.2 } : Node).clock]) (Dto.ofCertificate p.1) p.2 d
          = (.ok ⟨false, some (.tgError (.trustVerificationError .expired)), ()⟩, d) := by
        have := (C75_updates (({ n with now := p.2 } : Node).call [[], ({ n with now := p.2 } : Node).clock]) d).2.2.2.1 p.1 p.2
          (hk p (.head _))
        unfold Spec.PassesOn at this
        rw [ha] at this
        exact this
      show OnStart.insertAll n ((Dto.ofCertificate p.1, p.2) :: cs.map Spec.toStart) d = _
      unfold OnStart.insertAll
      rw [M.bind_run_ok h1, M.bind_run_ok (ih (fun q hq => hk q (.tail _ hq)) (fun q hq => he q (.tail _ hq)))]
      rfl
  have hs : Service.setRoot (n.call [[], []]) Aqua.fluenceRootPeerId OnStart.maxChainLen db = (.ok ⟨true, none, ()⟩, d0) := by
    have := (C75_updates (n.call [[], []]) db).1 root OnStart.maxChainLen hrsa ho
    unfold Spec.PassesOn at this
    rw [show OnStart.maxChainLen.toNat = 5 from rfl, hset, hroot] at this
    exact this
  unfold OnStart.run
  rw [M.bind_run_ok hs, M.bind_run_ok (hins d0)]
  rfl

omit [LawfulEnv] in
/-- **C83**: started by anybody else, the script first reports that. (It does not change the roots: `C85_restart_adds_only`.) -/
theorem C83_not_owner [Env] {n : Node} (ho : n.init ≠ n.creator) (certs : List (CertDto × UInt64)) {db d : Db} {out : List Returned}
    (h : OnStart.run n certs db = (.ok out, d)) : out.head? = some (.error (some .notOwner)) := by
  have hs : Service.setRoot (n.call [[], []]) Aqua.fluenceRootPeerId OnStart.maxChainLen db = (.ok ⟨false, some .notOwner, ()⟩, db) := by
    unfold Service.setRoot
    rw [if_neg (fun h => ho h.symm)]
    rfl
  unfold OnStart.run at h
  rw [M.bind_run_ok hs, M.bind_run] at h
  rcases hi : OnStart.insertAll n certs db with ⟨_ | _ | _ | _, d'⟩
  · rw [hi] at h; cases h; rfl
  all_goals rw [hi] at h; cases h

end TG
