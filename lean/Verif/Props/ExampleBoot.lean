/-
Property C93: the example on a node that has been started with the certificates of the administrator.
-/
import Verif.Props.Bootstrap
import Verif.Props.ExampleRun

namespace TG
open TG.Service
variable [LawfulEnv]

/-- The example on a node that has been started with genuine certificates. -/
theorem start_example (hw : Env.wasm = true) {root label : PublicKey} {ex : KeyPair} {peers : List PublicKey} (h : Spec.Network root label ex.pub peers)
    {e : UInt64} {rt lt : PublicKey → Trust} (hg : Spec.Genuine root label ex.pub peers e rt lt) (he : e.toNat < 2 ^ 63)
    {cs : List (Certificate × UInt64)} {d : Db} (hfst : cs.map (·.1) = Spec.startCerts root label ex.pub peers rt lt)
    (hd : Imported (Db.empty.addRoot root 11) (cs.map Spec.atTime) d) (hreach : Reachable d) (hlength : d.relations.length + 100 < 2 ^ 32)
    {α : Type} (compute : α) {relay : UInt64 → Node} (hclk : ∀ t, (relay t).now = t) (hinit : ∀ t, (relay t).init = ex.pub.toPeerId.toBase58)
    {sig : SigService} (hs : Spec.SignsWith sig ex) (o : List Tetraplet) {clock : Nat → UInt64} (hclock : Spec.Clock clock)
    (hend : clock 21 < e) {A B C : PublicKey} (hne : ∀ x ∈ [A, B, C], x ≠ root ∧ x ≠ ex.pub)
    (hAB : A ≠ B) (hAC : A ≠ C) (hBC : B ≠ C) :
    (Example.main relay sig o ex.pub.toPeerId.toBase58 A.toPeerId.toBase58 B.toPeerId.toBase58 C.toPeerId.toBase58 compute clock d).1
      = .ok (Spec.documented A.toPeerId.toBase58 B.toPeerId.toBase58 C.toPeerId.toBase58 compute) := by
  have hend := UInt64.lt_iff_toNat_lt.mp hend
  have hm1 : (clock 1).toNat ≤ (clock 21).toNat := by
    have hm : ∀ j, j ≤ 20 → (clock 1).toNat ≤ (clock (j + 1)).toNat := by
      intro j
      induction j with
      | zero => intro _; exact Nat.le_refl _
      | succ j ih =>
        intro hj
        exact Nat.le_trans (ih (by omega)) (UInt64.le_iff_toNat_le.mp (hclock.mono (j + 1) (by omega)))
    exact hm 20 (Nat.le_refl _)
  have hlive : ∀ now : UInt64, now.toNat < e.toNat → asI64 now < asI64 e := by
    intro now hn
    rw [asI64_of_lt (show now.toNat < 2 ^ 63 by omega), asI64_of_lt (show e.toNat < 2 ^ 63 by omega)]
    omega
  have hadmissible : ∀ now : UInt64, now.toNat < e.toNat → Spec.Admissible (d.snapshot (.ofSecs now)) ex.pub
      ⟨[rt root, rt ex.pub]⟩ := fun now hn =>
    ((start_snapshot hg hfst hd now).admissible h hg.rootFor hg.labelFor _ _).mpr ⟨hlive now hn, .inl ⟨rfl, rfl⟩⟩
  have hnorev : ∀ now : UInt64, ∀ k k', ¬ (d.snapshot (.ofSecs now)).revoked k k' := fun now => (start_snapshot hg hfst hd now).revoked
  have hfac : d.rootFactor root = some 11 := by rw [hd.rootFactor, Db.addRoot_rootFactor, if_pos rfl]
  refine C92_example_output hw compute hclk hinit hs hclock (c := ⟨[rt root, rt ex.pub]⟩)
    ⟨hreach, hd.noFaults, by omega, fun x hx => ?_, ?_, fun x hx q hq hby _ => ?_, fun x hx => (hne x hx).2.symm⟩ ?_ hAB hAC hBC
  · refine ⟨hadmissible _ (by omega), ?_, fun _ _ _ _ _ _ _ => hnorev _ _ _, fun _ _ _ => hnorev _ _ _⟩
    intro t ht
    simp only [List.mem_cons, List.not_mem_nil, or_false] at ht
    rcases ht with rfl | rfl
    · rw [hg.rootFor]; exact (hne x hx).1.symm
    · rw [hg.rootFor]; exact (hne x hx).2.symm
  · unfold Db.certWeight
    dsimp only
    rw [hg.rootFor, hfac]
    exact (by decide : 2 ≤ 2 ^ (16 - (11 + 1)))
  · exfalso
    rcases q with a | r
    · have hst := (hd.stored (.auth a)).mp hq
      rcases hst with ⟨p, hp, k, t, hk, ea⟩ | ⟨⟨-, h'⟩, -⟩
      · cases ea
        obtain ⟨p, hm, rfl⟩ := List.mem_map.mp hp
        have := (Spec.bootEdge_iff hg.rootFor).mp ⟨p.1, hfst ▸ List.mem_map_of_mem hm, hk⟩
        change k = ex.pub at hby
        subst hby
        rcases this with ⟨h', -⟩ | ⟨h', -⟩ | ⟨h', -⟩ | ⟨h', -⟩
        · exact h.exRoot h'
        · exact h.exRoot h'
        · exact h.exRoot h'
        · exact h.exLabel h'
      · nomatch h'
    · exact hnorev 0 _ _ ⟨r, hq, rfl, rfl⟩
  · intro t ht
    have hx : t.expiresAt = .ofSecs e := by
      simp only [List.mem_cons, List.not_mem_nil, or_false] at ht
      rcases ht with rfl | rfl <;> exact hg.rootExpires _
    show asI64 (clock 21) < asI64 t.expiresAt.secs
    rw [hx]
    exact hlive _ (by omega)


/-- **C93.**  The administrator makes the certificates with the program `admin`, with the key `ex` for the example; a new node gets them with the start script.
Then the example program, run on this node with the key `ex` before the certificates expire, prints what its README says, whatever the three nodes are. -/
theorem C93_example_after_bootstrap (hw : Env.wasm = true) {root label ex : KeyPair} {peers : List PublicKey} (h : Spec.Network root.pub label.pub ex.pub peers)
    (adm : Node) (dbA : Db) (hnow : adm.now.toNat + 63072000 < 2 ^ 63) {certs : List CertDto}
    (hadm : (Admin.certificates adm root label ex (peers.map fun p => p.toPeerId.toBase58) dbA).1 = .ok certs)
    {n : Node} (ho : n.init = n.creator) (times : List UInt64) (hlen : times.length = certs.length)
    (htimes : ∀ t ∈ times, t.toNat < adm.now.toNat + 63072000) (hpeers : 3 * peers.length + 102 < 2 ^ 32)
    {α : Type} (compute : α) {relay : UInt64 → Node} (hclk : ∀ t, (relay t).now = t) (hinit : ∀ t, (relay t).init = ex.pub.toPeerId.toBase58)
    {sig : SigService} (hs : Spec.SignsWith sig ex) (o : List Tetraplet) {clock : Nat → UInt64} (hclock : Spec.Clock clock)
    (hend : (clock 21).toNat < adm.now.toNat + 63072000) {A B C : PublicKey} (hne : ∀ x ∈ [A, B, C], x ≠ root.pub ∧ x ≠ ex.pub)
    (hAB : A ≠ B) (hAC : A ≠ C) (hBC : B ≠ C) :
    ∃ d, OnStart.run n (certs.zip times) .empty = (.ok [.true], d) ∧
      (Example.main relay sig o ex.pub.toPeerId.toBase58 A.toPeerId.toBase58 B.toPeerId.toBase58 C.toPeerId.toBase58 compute clock d).1
        = .ok (Spec.documented A.toPeerId.toBase58 B.toPeerId.toBase58 C.toPeerId.toBase58 compute) := by
  obtain ⟨cs, d, hrun, hfst, hd, hreach, hlength⟩ := boot_imported hw h adm dbA hnow hadm ho times hlen htimes (by omega)
  have he := two_years hnow
  exact ⟨d, hrun, start_example hw h (made_genuine hw root label ex peers _ adm.now) (by omega) hfst hd hreach (by omega) compute hclk hinit hs o hclock
    (UInt64.lt_iff_toNat_lt.mpr (by omega)) hne hAB hAC hBC⟩

end TG
