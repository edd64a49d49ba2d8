/-
Property C147, through the service.
-/
import Verif.Props.Compare
import Verif.Props.Agree
import Verif.Props.Effect
import Verif.Props.ServiceLibrary

namespace TG
open Spec SqlStorage

section
variable [Env]

/-- The trust, with its issuer, is on the certificate: the first one is issued by the key it is for, the others by the key of the preceding one. -/
def Spec.TrustOn (d : CertDto) (a : Auth) : Prop :=
  ∃ (j : Nat) (y z : TrustDto), d.chain[j]? = some y ∧ d.chain[j - 1]? = some z ∧ IsTrust y a.trust ∧ Names z.issuedFor a.issuedBy

/-- A stored relation stays, and so do the roots, as long as it is live and nothing else is submitted about its two keys. -/
theorem Later.keeps {P : Op → Prop} {a : Auth} {db db' : Db} (hl : Later P db db')
    (ht : ∀ op u, P op → op.time = some u → Live a.trust u) (hq : ∀ op q, P op → op.Submits q → q.SamePair (.auth a) → q = .auth a) :
    db.Stored (.auth a) → db'.Stored (.auth a) := by
  intro h0
  have hwh : (TrustRelation.auth a).trunc = .auth a := h0.1.trunc_eq
  have hQ : Quiet (fun d d' : Db => d.Stored (.auth a) → d'.Stored (.auth a)) :=
    ⟨fun _ h => h, fun _ _ _ h1 h2 h => h2 (h1 h), fun _ _ h => h⟩
  revert h0
  induction hl with
  | refl => exact fun h => h
  | weather fs _ ih => exact hQ.trans _ _ _ ih (hQ.faults _ fs)
  | @step d op hok _ ih =>
    refine hQ.trans _ _ _ ih (Op.run_steps hQ op ?_ ?_ ?_ d)
    · intro t h d hd
      exact (Db.stored_collect t).mpr ⟨hd, fun b e => by cases e; exact ht op t hok h⟩
    · intro q hoff hv _ d _ hd
      by_cases hp : q.SamePair (.auth a)
      · refine Db.stored_put.mpr (.inl ?_)
        rw [hq op q hok ⟨hoff, hv⟩ hp, hwh]
      · exact Db.stored_put.mpr (.inr ⟨hd, fun h => hp ⟨h.1.symm, h.2.symm⟩⟩)
    · rintro pk n rfl d hd
      exact hd

theorem Later.keepsRoots {P : Op → Prop} {db db' : Db} (hl : Later P db db') : KeepsRoots db db' := by
  have hQ : Quiet KeepsRoots := ⟨fun _ _ _ h => h, fun _ _ _ h1 h2 k f h => h2 k f (h1 k f h), fun _ _ _ _ h => h⟩
  induction hl with
  | refl => exact hQ.refl _
  | weather fs _ ih => exact hQ.trans _ _ _ ih (hQ.faults _ fs)
  | @step d op hok _ ih =>
    refine hQ.trans _ _ _ ih (Op.run_steps hQ op (fun _ _ _ _ _ h => h) (fun _ _ _ _ _ _ _ _ h => h) ?_ d)
    rintro pk n rfl d k f h
    exact Db.rootFactor_kept h _ _

theorem Spec.IsTrust.whole {d : TrustDto} {t : Trust} (h : IsTrust d t) : t.issuedAt.Whole ∧ t.expiresAt.Whole := by
  rw [h.2.2.1, h.2.2.2]
  exact ⟨rfl, rfl⟩

/-- A root that was set is one. -/
theorem Spec.TookRoot.root {tr : List Event} {db : Db} {k : PublicKey} {n : Nat} (h : Acts ⟨[], [], []⟩ tr db) (hk : TookRoot tr k n) : ∃ f, db.rootFactor k = some f := by
  obtain ⟨cp, p, m, r, he, hs, hp, -⟩ := hk
  obtain ⟨pre, post, rfl⟩ := List.append_of_mem he
  obtain ⟨m1, h1, hz⟩ := h.split _ _ rfl
  obtain ⟨m2, h2, h3⟩ := hz.split [_] _ rfl
  suffices hf : ∃ f, m2.rootFactor k = some f by
    obtain ⟨f, hf⟩ := hf
    exact ⟨f, Later.keepsRoots h3.later k f hf⟩
  rcases h2.single with ⟨p, hp, -⟩ | ⟨h, -⟩ | ⟨op, fs, fs1, w, dd, hal, hm, hcall, hr, rfl⟩
  · cases hp
  · rw [hs] at h; cases h
  cases hm with
  | setRoot hp' =>
    cases hp.unique hp'
    obtain ⟨w, e, rfl⟩ := M.bind_pure_ok hcall
    have := rootFactor_setRoot e k
    show ∃ f, dd.rootFactor k = some f
    rw [this]
    split
    · exact ⟨_, rfl⟩
    · next hn =>
      rcases hf : ({ m1 with faults := fs } : Db).rootFactor k with _ | f
      · exact absurd ⟨hf, rfl⟩ hn
      · exact ⟨f, rfl⟩

end

variable [LawfulEnv]

/-- A trust that was taken in is stored, as long as it is live and nothing else is submitted about its two keys. -/
theorem Spec.Took.stored {tr : List Event} {db : Db} {a : Auth} (h : Acts ⟨[], [], []⟩ tr db) (hk : Took tr (.auth a))
    (ht : ∀ op u, Made tr op → op.time = some u → Live a.trust u) (hq : ∀ op q, Made tr op → op.Submits q → q.SamePair (.auth a) → q = .auth a) :
    db.Stored (.auth a) := by
  cases hk with
  | @trust cp d i t r x a he hs hp hx ha =>
    obtain ⟨pre, post, rfl⟩ := List.append_of_mem he
    obtain ⟨m1, h1, hz⟩ := h.split _ _ rfl
    obtain ⟨m2, h2, h3⟩ := hz.split [_] _ rfl
    have up : ∀ op, Made post op → Made (pre ++ .call cp (.addTrust d i t) (.ok r) :: post) op := fun op ⟨cp, c, o, hm, h⟩ =>
      ⟨cp, c, o, List.mem_append_right _ (List.mem_cons_of_mem _ hm), h⟩
    refine Later.keeps h3.later (fun op u ho => ht op u (up op ho)) (fun op q ho => hq op q (up op ho)) ?_
    have r1 := h1.reachable .init
    have hl2 : Later (Made (pre ++ .call cp (.addTrust d i t) (.ok r) :: post)) ⟨[], [], []⟩ m2 :=
      (h1.later.mono fun op ⟨cp, c, o, hm, h⟩ => ⟨cp, c, o, List.mem_append_left _ hm, h⟩).trans
        (h2.later.mono fun op ⟨cp, c, o, hm, h⟩ => ⟨cp, c, o, List.mem_append_right _ (List.mem_singleton.mp hm ▸ List.mem_cons_self ..), h⟩)
    obtain ⟨ops, h6, h7⟩ := hl2.history
    rcases h2.single with ⟨p, hp, -⟩ | ⟨h, -⟩ | ⟨op, fs, fs1, w, dd, hal, hm, hcall, hr, rfl⟩
    · cases hp
    · rw [hs] at h; cases h
    cases hm with
    | addTrust hx' ha' =>
      cases hx.unique hx'
      cases ha.unique ha'
      obtain ⟨w, e, rfl⟩ := M.bind_pure_ok hcall
      subst hr
      have hw : w ≠ 0 := fun h0 => hp (by rw [h0]; rfl)
      obtain ⟨⟨q, h4, h5, -⟩, -⟩ := C76_add_trust_takes_effect (r1.weather fs) e hw
      obtain ⟨op, ho, q0, hq0, hv, rfl⟩ := (C72_provenance h6).1 q h4
      have := hq op q0 (h7 op ho) ⟨hq0, hv⟩ (by simpa [TrustRelation.SamePair] using h5)
      subst this
      have hwh : (TrustRelation.auth ⟨x, a⟩).Whole := hx.whole
      rw [hwh.trunc_eq] at h4
      exact h4

/-- **C147**, through the service.  If one service shows a certificate for a peer and another does not, then with the other: the first peer on the certificate was not set as a
root; or one of its trusts was not taken in; or something else was submitted about the issuer and the recipient of one of its trusts; or a revocation between two peers on
it was submitted; or there was a call with a time at which one of its trusts had expired. -/
theorem C147_service {faulty faulty' : Prop} {tr tr' : List Event} {cp cp' : CallParams} {p : Str} {t T : UInt64} {r r' : Res Payload} {ds ds' : List CertDto} {d : CertDto}
    {i i' : Option Instance} {f f' : Sql.File} (hw : Env.wasm = true)
    (h : ServiceRun faulty tr i f) (he : .call cp (.getAllCerts p t) (.ok r) ∈ tr) (hn : offeredIn tr + 16 < 2 ^ 32) (hr : r.payload = .certs ds) (hd : d ∈ ds)
    (h' : ServiceRun faulty' (tr' ++ [.call cp' (.getAllCerts p T) (.ok r')]) i' f') (hs' : r'.success = true) (hr' : r'.payload = .certs ds') (hd' : d ∉ ds') :
    (∃ y k, d.chain[0]? = some y ∧ Names y.issuedFor k ∧ ∀ n, ¬ TookRoot tr' k n) ∨
    (∃ a, TrustOn d a ∧ ¬ Took tr' (.auth a)) ∨
    (∃ a op q, TrustOn d a ∧ Made tr' op ∧ op.Submits q ∧ q.SamePair (.auth a) ∧ q ≠ .auth a) ∨
    (∃ op x, Made tr' op ∧ op.Submits (.revocation x) ∧ On d x.revokedBy ∧ On d x.pk) ∨
    ∃ y ∈ d.chain, ∃ op u, Made (tr' ++ [.call cp' (.getAllCerts p T) (.ok r')]) op ∧ op.time = some u ∧ asI64 y.expiresAt ≤ asI64 u.secs := by
  obtain ⟨z, hz, -⟩ := C125_library h
  obtain ⟨m, hm, -, ha⟩ := hz.answered .init he (by show 0 + _ + 16 < _; omega)
  rcases ha with ⟨x, hx, -⟩ | ⟨-, hx⟩ | ⟨op, a, s, -, hmean, hcall, rfl⟩
  · cases hx
  · rw [hr] at hx; cases hx; cases hd
  obtain ⟨z', hz', -⟩ := C125_library h'
  obtain ⟨m', h1, h2⟩ := hz'.split _ _ rfl
  rcases h2.single with ⟨x, hx, -⟩ | ⟨hx, -⟩ | ⟨op', fs, fs', a', s', hal', hmean', hcall', rfl, -⟩
  · cases hx
  · rw [hs'] at hx; cases hx
  cases hmean with
  | @getAllCerts _ _ X hX =>
  cases hmean' with
  | getAllCerts hX' =>
  cases hX.unique hX'
  obtain ⟨cs, e, rfl⟩ := M.bind_pure_ok hcall
  obtain ⟨cs', e', rfl⟩ := M.bind_pure_ok hcall'
  cases hr
  cases hr'
  obtain ⟨c, hc, rfl⟩ := List.mem_map.mp hd
  have hnc : c ∉ cs' := fun hc' => hd' (List.mem_map_of_mem hc')
  have hre := hm.reachable .init
  have hre' := (h1.reachable .init).weather fs
  have hadm := ((C02_complete_exactly_once hre.healthy e).2 c).1 hc
  have hob := (C147_reason hre hre' e e' c hc).1 hnc
  have whole : ∀ (j : Nat) (x : Trust), c.chain[j]? = some x → IsTrust (Dto.ofTrust x) x := by
    intro j x hx
    have hx : ∃ k, m.Stored (.auth ⟨x, k⟩) := by
      rcases j with _ | j
      · exact ⟨_, (hadm.linked.root x hx).2.1⟩
      · have hj : j + 1 < c.chain.length := (List.getElem?_eq_some_iff.mp hx).1
        exact ⟨_, (hadm.linked.link j _ x (List.getElem?_eq_getElem (by omega)) hx).1⟩
    obtain ⟨k, hk, -⟩ := hx
    have ofWhole : ∀ {u : Dur}, u.Whole → u = .ofSecs u.secs := by
      rintro ⟨x, n⟩ hu
      cases (show n = 0 from hu)
      rfl
    exact ⟨names_toPeerId hw _, ⟨Base58.decode_encode _, rfl⟩, ofWhole hk.2, ofWhole hk.1⟩
  have getDto : ∀ (j : Nat) (x : Trust), c.chain[j]? = some x → (Dto.ofCertificate c).chain[j]? = some (Dto.ofTrust x) := by
    intro j x hx
    show (c.chain.map Dto.ofTrust)[j]? = _
    rw [List.getElem?_map, hx]; rfl
  by_contra hno
  push Not at hno
  obtain ⟨n1, n2, n3, n4, n5⟩ := hno
  have lastMade : Made (tr' ++ [.call cp' (.getAllCerts p T) (.ok ⟨true, none, (Call.getAllCerts p T).present (.certs cs')⟩)]) (.getAllCerts X (.ofSecs T)) :=
    ⟨_, _, _, List.mem_append_right _ (List.mem_singleton_self _), hal', .getAllCerts hX⟩
  have up : ∀ op, Made tr' op → Made (tr' ++ [.call cp' (.getAllCerts p T) (.ok ⟨true, none, (Call.getAllCerts p T).present (.certs cs')⟩)]) op :=
    fun op ⟨cp, c, o, hm, h⟩ => ⟨cp, c, o, List.mem_append_left _ hm, h⟩
  have inForce : ∀ (j : Nat) (x y : Trust), c.chain[j]? = some x → c.chain[j - 1]? = some y → (({ m' with faults := fs } : Db).snapshot (.ofSecs T)).trusted y.issuedFor x := by
    intro j x y hx hy
    have hon : TrustOn (Dto.ofCertificate c) ⟨x, y.issuedFor⟩ := ⟨j, _, _, getDto j x hx, getDto _ y hy, whole j x hx, names_toPeerId hw _⟩
    have live : ∀ op u, Made _ op → op.time = some u → Live x u := fun op u ho hu =>
      n5 _ (List.mem_of_getElem? (getDto j x hx)) op u ho hu
    refine ⟨Took.stored (h1.weather fs) (n2 _ hon) (fun op u ho hu => live op u (up op ho) hu) fun op q ho hq hp => n3 _ op q hon ho hq hp, live _ _ lastMade rfl⟩
  rcases hob with ⟨x, hx, hroot⟩ | ⟨x, hx, hnt⟩ | ⟨j, x, y, hx, hy, hnt⟩ | ⟨j, l, x, y, hjl, hx, hy, hl, hrev⟩
  · obtain ⟨n, hn⟩ := n1 _ _ (getDto 0 x hx) (names_toPeerId hw x.issuedFor)
    obtain ⟨f, hf⟩ := TookRoot.root h1 hn
    exact hroot (Db.rootFactor_isSome.1 (by show (m'.rootFactor _).isSome = true; rw [hf]; rfl))
  · exact hnt (inForce 0 x x hx hx)
  · exact hnt (inForce (j + 1) y x hy hx)
  · obtain ⟨q, hq, e1, e2⟩ := hrev
    obtain ⟨ops, h6, h7⟩ := h1.later.history
    obtain ⟨op, ho, q0, hq0, hv, e0⟩ := (C72_provenance h6).1 _ hq
    cases q0 with
    | auth => cases e0
    | revocation q0 =>
      cases e0
      refine n4 op q0 (h7 op ho) ⟨hq0, hv⟩ (.of_mem hw ?_) (.of_mem hw ?_)
      · rw [show q0.revokedBy = x.issuedFor from e1]
        exact List.mem_map_of_mem (List.mem_of_getElem? hx)
      · rw [show q0.pk = y.issuedFor from e2]
        exact List.mem_map_of_mem (List.mem_of_getElem? hy)

end TG
