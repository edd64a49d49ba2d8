/-
Property C140, through the service.
-/
import Verif.Props.CompareService
import Verif.Props.Change

namespace TG
open Spec SqlStorage
variable [LawfulEnv]

/-- A revocation of `b` by `a` invalidates the certificate, see `Spec.Cut`. -/
def Spec.CutOn (a b : PublicKey) (d : CertDto) : Prop :=
  (a = b ∧ ∃ y, d.chain[0]? = some y ∧ Names y.issuedFor a) ∨
  ∃ (i j : Nat) (y z : TrustDto), i < j ∧ d.chain[i]? = some y ∧ d.chain[j]? = some z ∧ Names y.issuedFor a ∧ Names z.issuedFor b ∧ (j + 2 ≠ d.chain.length ∨ j = i + 1)

namespace ChangeService

theorem getDto {c : Certificate} {j : Nat} {x : Trust} (hx : c.chain[j]? = some x) : (Dto.ofCertificate c).chain[j]? = some (Dto.ofTrust x) := by
  show (c.chain.map Dto.ofTrust)[j]? = _
  rw [List.getElem?_map, hx]; rfl

theorem ofDto {c : Certificate} {j : Nat} {y : TrustDto} (hy : (Dto.ofCertificate c).chain[j]? = some y) : ∃ x, c.chain[j]? = some x ∧ y = Dto.ofTrust x := by
  change (c.chain.map Dto.ofTrust)[j]? = _ at hy
  rw [List.getElem?_map] at hy
  obtain ⟨x, hx, rfl⟩ := Option.map_eq_some_iff.mp hy
  exact ⟨x, hx, rfl⟩

theorem named (hw : Env.wasm = true) {x : Trust} {k : PublicKey} : Names (Dto.ofTrust x).issuedFor k ↔ x.issuedFor = k :=
  ⟨fun h => (names_toPeerId hw x.issuedFor).unique h, fun h => h ▸ names_toPeerId hw x.issuedFor⟩

theorem cutOn_iff (hw : Env.wasm = true) {a b : PublicKey} {c : Certificate} : CutOn a b (Dto.ofCertificate c) ↔ Cut a b c := by
  have hlen : (Dto.ofCertificate c).chain.length = c.chain.length := List.length_map _
  constructor
  · rintro (⟨e, y, hy, hk⟩ | ⟨i, j, y, z, hij, hy, hz, h1, h2, h3⟩)
    · obtain ⟨x, hx, rfl⟩ := ofDto hy
      exact .inl ⟨e, x, hx, (named hw).mp hk⟩
    · obtain ⟨x, hx, rfl⟩ := ofDto hy
      obtain ⟨v, hv, rfl⟩ := ofDto hz
      exact .inr ⟨i, j, x, v, hij, hx, hv, (named hw).mp h1, (named hw).mp h2, hlen ▸ h3⟩
  · rintro (⟨e, x, hx, hk⟩ | ⟨i, j, x, v, hij, hx, hv, h1, h2, h3⟩)
    · exact .inl ⟨e, _, getDto hx, (named hw).mpr hk⟩
    · exact .inr ⟨i, j, _, _, hij, getDto hx, getDto hv, (named hw).mpr h1, (named hw).mpr h2, hlen.symm ▸ h3⟩

theorem isTrust_of_whole (hw : Env.wasm = true) {x : Trust} (h : x.issuedAt.Whole ∧ x.expiresAt.Whole) : IsTrust (Dto.ofTrust x) x := by
  have ofWhole : ∀ {u : Dur}, u.Whole → u = .ofSecs u.secs := by
    rintro ⟨x, n⟩ hu
    cases (show n = 0 from hu)
    rfl
  exact ⟨names_toPeerId hw _, ⟨Base58.decode_encode _, rfl⟩, ofWhole h.2, ofWhole h.1⟩

/-- A certificate that is shown before and after a call: the states of the graph. -/
theorem around {faulty : Prop} {pre : List Event} {cp cp' cp'' : CallParams} {c : Call} {p : Str} {T : UInt64} {r r' r'' : Res Payload} {ds ds'' : List CertDto}
    {i : Option Instance} {f : Sql.File}
    (h : ServiceRun faulty (pre ++ .call cp (.getAllCerts p T) (.ok r) :: .call cp' c (.ok r') :: [.call cp'' (.getAllCerts p T) (.ok r'')]) i f)
    (hc : ∀ p, ¬ Computes c p) (hs : r.success = true) (hs' : r'.success = true) (hs'' : r''.success = true) (hr : r.payload = .certs ds) (hr'' : r''.payload = .certs ds'') :
    ∃ (X : PublicKey) (op : Op) (a : Answer) (db s d d' : Db) (cs cs'' : List Certificate), Reachable db ∧ (offeredIn pre + 16 < 2 ^ 32 → db.relations.length ≤ offeredIn pre) ∧ Allowed cp' c ∧ Means cp' c op ∧
      TrustGraph.getAllCerts X (.ofSecs T) db = (.ok cs, s) ∧ op.call db = (.ok a, d) ∧ r' = ⟨true, none, c.present a⟩ ∧
      TrustGraph.getAllCerts X (.ofSecs T) d = (.ok cs'', d') ∧ (∀ x, x ∈ ds ↔ x ∈ cs.map Dto.ofCertificate) ∧ ds'' = cs''.map Dto.ofCertificate := by
  obtain ⟨z, hz, -⟩ := C125_library h
  obtain ⟨m1, h1, hz⟩ := hz.split _ _ rfl
  obtain ⟨m2, h2, hz⟩ := hz.split [_] _ rfl
  obtain ⟨m3, h3, h4⟩ := hz.split [_] _ rfl
  have r1 := h1.reachable .init
  have r2 := h2.reachable r1
  rcases h2.single with ⟨p, hp, -⟩ | ⟨h, -⟩ | ⟨op1, fs1, fs1', a1, d1, -, hm1, hcall1, rfl, rfl⟩
  · cases hp
  · rw [hs] at h; cases h
  rcases h3.single with ⟨p, hp, -⟩ | ⟨h, -⟩ | ⟨op, fs2, fs2', a, d2, ha, hm, hcall2, hr', rfl⟩
  · exact absurd hp (hc p)
  · rw [hs'] at h; cases h
  rcases h4.single with ⟨p, hp, -⟩ | ⟨h, -⟩ | ⟨op3, fs3, fs3', a3, d3, -, hm3, hcall3, rfl, -⟩
  · cases hp
  · rw [hs''] at h; cases h
  cases hm1 with
  | @getAllCerts _ _ X hX =>
  cases hm3 with
  | getAllCerts hX' =>
  cases hX.unique hX'
  obtain ⟨cs, e1, rfl⟩ := M.bind_pure_ok hcall1
  obtain ⟨cs'', e3, rfl⟩ := M.bind_pure_ok hcall3
  cases hr
  cases hr''
  have t1 := (TrustGraph.getAllCerts_transparent _ _).ok e1
  have c1 : ({ m1 with faults := fs1 } : Db).calm = m1.calm := rfl
  have hh : m1.calm.Healthy := r1.healthy.calm
  have hd1 : d1.calm = m1.calm.collect (.ofSecs T) := by
    have := Db.getAllCerts_eq hh (Db.calm_noFaults _) X (.ofSecs T)
    rw [c1] at t1
    rw [t1] at this
    exact congrArg Prod.snd this
  have t2 := op.call_transparent.ok hcall2
  have t3 := (TrustGraph.getAllCerts_transparent _ _).ok e3
  have r2' := r2.weather []
  obtain ⟨⟨cs0, e0⟩, -⟩ := C14_cert_queries_succeed r2' (Db.calm_noFaults _) X X (.ofSecs T)
  refine ⟨X, op, a, _, _, _, _, cs0, cs'', r2', fun hn => ?_, ha, hm, Prod.ext e0 rfl, t2, hr', t3, fun x => ?_, rfl⟩
  · have l1 := h1.length .init (by show 0 + _ + 16 < _; omega)
    have l2 := h2.length r1 (by rw [show (⟨[], [], []⟩ : Db).relations.length = 0 from rfl] at l1; simp [offeredIn, Call.offered]; omega)
    rw [show (⟨[], [], []⟩ : Db).relations.length = 0 from rfl] at l1
    simp [offeredIn, Call.offered] at l2
    show d1.relations.length ≤ _
    exact l2.trans (by simpa [offeredIn] using l1)
  · have hmem : ∀ c, c ∈ cs ↔ c ∈ cs0 := by
      intro c
      rw [(C02_complete_exactly_once hh (by rw [← c1]; exact t1)).2 c, (C02_complete_exactly_once r2'.healthy (Prod.ext e0 rfl)).2 c]
      rw [show ({ d1 with faults := [] } : Db) = _ from hd1, Db.collect_snapshot]
    show x ∈ cs.map Dto.ofCertificate ↔ _
    simp only [List.mem_map, hmem]

end ChangeService
open ChangeService

/-- **C140**, through the service: what a revocation changes.  If the service shows certificates for a peer, then takes a revocation, and then is asked for the certificates again with
the same time, either nothing has changed, or exactly the certificates are gone that the revocation cuts. -/
theorem C140_service_revoke {faulty : Prop} {pre : List Event} {cp cp' cp'' : CallParams} {p : Str} {T u : UInt64} {x : RevocationDto} {q : Revocation}
    {r r' r'' : Res Payload} {ds ds'' : List CertDto} {i : Option Instance} {f : Sql.File} (hw : Env.wasm = true)
    (h : ServiceRun faulty (pre ++ .call cp (.getAllCerts p T) (.ok r) :: .call cp' (.revoke x u) (.ok r') :: [.call cp'' (.getAllCerts p T) (.ok r'')]) i f)
    (hs : r.success = true) (hs' : r'.success = true) (hs'' : r''.success = true) (hr : r.payload = .certs ds) (hr'' : r''.payload = .certs ds'') (hq : IsRevocation x q) :
    (∀ d, d ∈ ds'' ↔ d ∈ ds ∧ ¬ CutOn q.revokedBy q.pk d) ∨ ∀ d, d ∈ ds'' ↔ d ∈ ds := by
  obtain ⟨X, op, a, db, s, d, d', cs, cs'', hre, -, -, hm, e1, e2, -, e3, h1, rfl⟩ := around h (fun _ h => by cases h) hs hs' hs'' hr hr''
  cases hm with
  | revoke hq' =>
  cases hq.unique hq'
  obtain ⟨v, e2, -⟩ := M.bind_pure_ok e2
  by_cases hnews : News db (.revocation q)
  · refine .inl fun d => ?_
    have := (C140_revoke hre e2 e1 e3).1 hnews
    rw [h1]
    constructor
    · intro hd
      obtain ⟨c, hc, rfl⟩ := List.mem_map.mp hd
      exact ⟨List.mem_map_of_mem ((this c).1 hc).1, fun hcut => ((this c).1 hc).2 ((cutOn_iff hw).mp hcut)⟩
    · rintro ⟨hd, hcut⟩
      obtain ⟨c, hc, rfl⟩ := List.mem_map.mp hd
      exact List.mem_map_of_mem ((this c).2 ⟨hc, fun h => hcut ((cutOn_iff hw).mpr h)⟩)
  · refine .inr fun d => ?_
    rw [(C140_revoke hre e2 e1 e3).2 hnews, h1]

/-- **C140**, through the service: what a trust changes.  Each certificate that comes in contains the trust, or its issuer before its recipient (whom the issuer had revoked); each
that is gone contained another trust of the same issuer in the same recipient.  If the answer to `add_trust` was the weight 0, nothing has changed. -/
theorem C140_service_trust {faulty : Prop} {pre : List Event} {cp cp' cp'' : CallParams} {p j : Str} {T u : UInt64} {x : TrustDto} {y : Trust} {a : PublicKey}
    {r r' r'' : Res Payload} {ds ds'' : List CertDto} {i : Option Instance} {f : Sql.File} (hw : Env.wasm = true)
    (h : ServiceRun faulty (pre ++ .call cp (.getAllCerts p T) (.ok r) :: .call cp' (.addTrust x j u) (.ok r') :: [.call cp'' (.getAllCerts p T) (.ok r'')]) i f)
    (hn : offeredIn pre + 16 < 2 ^ 32) (hs : r.success = true) (hs' : r'.success = true) (hs'' : r''.success = true) (hr : r.payload = .certs ds) (hr'' : r''.payload = .certs ds'')
    (hy : IsTrust x y) (ha : Names j a) (ht : u ≤ T) (hT : T.toNat < 2 ^ 63) :
    (∀ d ∈ ds'', d ∈ ds ∨ TrustOn d ⟨y, a⟩ ∨ ∃ (k l : Nat) (v z : TrustDto), k < l ∧ d.chain[k]? = some v ∧ d.chain[l]? = some z ∧ Names v.issuedFor a ∧ Names z.issuedFor y.issuedFor) ∧
    (∀ d ∈ ds, d ∈ ds'' ∨ ∃ old, TrustOn d ⟨old, a⟩ ∧ old.issuedFor = y.issuedFor) ∧
    (r'.payload = .newWeight 0 → ∀ d, d ∈ ds'' ↔ d ∈ ds) := by
  obtain ⟨X, op, b, db, s, d, d', cs, cs'', hre, hlen, -, hm, e1, e2, rfl, e3, h1, rfl⟩ := around h (fun _ h => by cases h) hs hs' hs'' hr hr''
  cases hm with
  | addTrust hy' ha' =>
  cases hy.unique hy'
  cases ha.unique ha'
  obtain ⟨w, e4, rfl⟩ := M.bind_pure_ok e2
  obtain ⟨h2, h3, h4⟩ := C140_add_trust hre (by have := hlen hn; omega) e4 (later := .ofSecs T) (asI64_mono ht hT) e1 e3
  have uses : ∀ {t : Trust} {c : Certificate}, t.issuedAt.Whole ∧ t.expiresAt.Whole → Uses a t c → TrustOn (Dto.ofCertificate c) ⟨t, a⟩ := by
    rintro t c hwh (⟨h0, rfl⟩ | ⟨k, v, hv, rfl, ht⟩)
    · exact ⟨0, _, _, getDto h0, getDto h0, isTrust_of_whole hw hwh, names_toPeerId hw _⟩
    · exact ⟨k + 1, _, _, getDto ht, getDto hv, isTrust_of_whole hw hwh, names_toPeerId hw _⟩
  refine ⟨fun d hd => ?_, fun d hd => ?_, fun h0 d => ?_⟩
  · obtain ⟨c, hc, rfl⟩ := List.mem_map.mp hd
    rcases h2 c hc with h | h | ⟨-, k, l, v, z, hkl, hv, hz, rfl, hz'⟩
    · exact .inl ((h1 _).2 (List.mem_map_of_mem h))
    · have e : y.trunc = y := by
        have : (TrustRelation.auth ⟨y, a⟩).Whole := hy.whole
        exact congrArg (fun q => match q with | .auth b => b.trust | .revocation _ => y) this.trunc_eq
      rw [e] at h
      exact .inr (.inl (uses hy.whole h))
    · exact .inr (.inr ⟨k, l, _, _, hkl, getDto hv, getDto hz, names_toPeerId hw _, (named hw).mpr hz'⟩)
  · obtain ⟨c, hc, rfl⟩ := List.mem_map.mp ((h1 d).1 hd)
    rcases h3 c hc with h | ⟨old, hold, e, hu⟩
    · exact .inl (List.mem_map_of_mem h)
    · exact .inr ⟨old, uses hold.1.1 hu, e⟩
  · have h0 : w = 0 := by
      cases h0
      rfl
    have := h4 (.inl h0)
    rw [h1]
    simp only [List.mem_map, this]

end TG
