/-
Property C124: nobody can speak for somebody else.
-/
import Verif.Spec.Speech
import Verif.Props.Keys
import Verif.Props.PeerIds
import Verif.Props.ServiceMachine

namespace TG
open Spec

section
variable [Env]

/-- Every relation of the world satisfies `ok`, and every root `isRoot`. -/
structure Spec.World.All (w : World) (ok : TrustRelation → Prop) (isRoot : PublicKey → Prop) : Prop where
  relation : ∀ a b q, w.relation a b = some q → q.issuedBy = a ∧ q.issuedFor = b ∧ ok q
  root : ∀ k, (w.roots k).isSome → isRoot k

namespace Spec.World.All
variable {w : World} {ok : TrustRelation → Prop} {isRoot : PublicKey → Prop}

theorem collect (h : w.All ok isRoot) (now : Dur) : (w.collect now).All ok isRoot := by
  refine ⟨fun a b q hq => ?_, h.root⟩
  unfold World.collect at hq
  dsimp only at hq
  split at hq
  · rename_i x hx
    split at hq
    · cases hq; exact h.relation _ _ _ hx
    · cases hq
  · exact h.relation _ _ _ hq

theorem update (h : w.All ok isRoot) {r : TrustRelation} (hr : ok r.trunc) : (w.update r).All ok isRoot := by
  refine ⟨fun a b q hq => ?_, h.root⟩
  unfold World.update at hq
  dsimp only at hq
  split at hq
  · rename_i hc
    cases hq
    refine ⟨?_, ?_, hr⟩
    · rw [hc.1]; cases r <;> rfl
    · rw [hc.2.1]; cases r <;> rfl
  · exact h.relation _ _ _ hq

theorem addTrust (h : w.All ok isRoot) {a : PublicKey} {t : Trust} {now : Dur} {y : Nat} {w' : World} (hs : w.AddTrust a t now y w')
    (hok : TrustRelation.SignatureValid (.auth ⟨t, a⟩) → ok (TrustRelation.trunc (.auth ⟨t, a⟩))) : w'.All ok isRoot := by
  obtain ⟨hv, x, -, -, rfl⟩ := hs
  split
  · exact h.collect now
  · exact (h.collect now).update (hok (Trust.verify_signatureValid hv))

/-- The trusts of a chain with the key that comes before each. -/
def chain : PublicKey → List Trust → List TrustRelation
  | _, [] => []
  | a, t :: ts => .auth ⟨t, a⟩ :: chain t.issuedFor ts

theorem addChain {now : Dur} {w : World} {a : PublicKey} {ts : List Trust} {o : Outcome TrustGraphError Answer} {w' : World} (hs : AddChain now w a ts o w')
    (h : w.All ok isRoot) (hok : ∀ q ∈ chain a ts, q.SignatureValid → ok q.trunc) : w'.All ok isRoot := by
  induction hs with
  | done => exact h
  | refused => exact h
  | next ha _ ih =>
    exact ih (h.addTrust ha (hok _ (by simp [chain]))) fun q hq => hok q (by simp [chain, hq])

theorem breakChain {now : Dur} {w : World} {a : PublicKey} {ts : List Trust} {w' : World} (hs : BreakChain now w a ts w')
    (h : w.All ok isRoot) (hok : ∀ q ∈ chain a ts, q.SignatureValid → ok q.trunc) : w'.All ok isRoot := by
  induction hs with
  | here e => rcases e with rfl | rfl; exacts [h, h.collect now]
  | later ha _ ih =>
    exact ih (h.addTrust ha (hok _ (by simp [chain]))) fun q hq => hok q (by simp [chain, hq])

theorem chain_issuers (a : PublicKey) (ts : List Trust) :
    chain a ts = ((a :: ts.dropLast.map (·.issuedFor)).zip ts).map (fun p => .auth ⟨p.2, p.1⟩) := by
  induction ts generalizing a with
  | nil => rfl
  | cons t ts ih =>
    rw [chain, ih]
    cases ts <;> simp

theorem chain_offers (t : Trust) (ts : List Trust) (now : Dur) : chain t.issuedFor (t :: ts) = (Op.add ⟨t :: ts⟩ now).offers := chain_issuers _ _

theorem step (h : w.All ok isRoot) {op : Op} {o : Outcome TrustGraphError Answer} {w' : World} (hs : w.Step op o w')
    (hok : ∀ q ∈ op.offers, q.SignatureValid → ok q.trunc) (hroot : ∀ k n, op = .setRoot k n → isRoot k) : w'.All ok isRoot := by
  cases hs with
  | setRoot k n =>
    refine ⟨h.relation, fun a ha => ?_⟩
    unfold World.setRoot at ha
    dsimp only at ha
    split at ha
    · rename_i e; rw [e.1]; exact hroot k n rfl
    · exact h.root a ha
  | addTrust ha => exact h.addTrust ha (hok _ (by simp [Op.offers]))
  | refuseTrust => exact h
  | add ha => exact addChain ha h (by rw [chain_offers]; exact hok)
  | addEmpty => exact h
  | revoke hv => exact h.update (hok _ (by simp [Op.offers]) (Revocation.verify_signatureValid hv))
  | refuseRevocation => exact h
  | weight => exact h.collect _
  | weightFrom => exact h.collect _
  | getAllCerts => exact h.collect _
  | getAllCertsFrom => exact h.collect _
  | getRevocations => exact h

theorem broken (h : w.All ok isRoot) {op : Op} {w' : World} (hs : w.Break op w')
    (hok : ∀ q ∈ op.offers, q.SignatureValid → ok q.trunc) : w'.All ok isRoot := by
  cases hs with
  | nothing => exact h
  | collected => exact h.collect _
  | add ha => exact breakChain ha h (by rw [chain_offers]; exact hok)

end Spec.World.All

/-- Messages determine statements on the target of the service. -/
theorem Spec.Statement.message_inj (hw : Env.wasm = true) {s s' : Statement} (h : s.message = s'.message) : s = s' := by
  cases s with
  | trust k e i =>
    cases s' with
    | trust k' e' i' =>
      obtain ⟨rfl, he, hi⟩ := C39_trust_message_binds h
      simp only [Dur.ofSecs] at he hi
      rw [he, hi]
    | revocation k' t => exact absurd h (C40_no_confusion_wasm hw _ _ _ _ _)
  | revocation k t =>
    cases s' with
    | trust k' e' i' => exact absurd h.symm (C40_no_confusion_wasm hw _ _ _ _ _)
    | revocation k' t' =>
      obtain ⟨rfl, ht⟩ := C39_revocation_message_binds h
      simp only [Dur.ofSecs] at ht
      rw [ht]

theorem Spec.claim_trunc (q : TrustRelation) : claim q.trunc = claim q := by
  cases q <;> rfl

theorem TrustRelation.issuedBy_trunc (q : TrustRelation) : q.trunc.issuedBy = q.issuedBy := by
  cases q <;> rfl

/-- A relation with a valid signature, whose issuer is not a Secp256k1 key, bears a genuine signature of what it claims. -/
theorem Spec.accepts_claim {q : TrustRelation} (h : q.SignatureValid) (hk : q.issuedBy.NotSecp) :
    q.issuedBy.Accepts (Env.sha256 (claim q).message) q.signature.raw := by
  cases q with
  | auth a => exact (C41_verify_sound_partial _ _ _ hk).mp h
  | revocation r => exact (C41_verify_sound_partial _ _ _ hk).mp h

/-- What holds for all relations handed over holds for those of the machine, at every moment of the run. -/
theorem Spec.Serves.all {faulty : Prop} {tr : List Event} {w : World} {s : Status} (h : Serves faulty tr w s) {ok : TrustRelation → Prop}
    {isRoot : PublicKey → Prop} (hok : ∀ q, HandedOver tr q → q.SignatureValid → ok q.trunc) (hroot : ∀ k, OwnerSet tr k → isRoot k) :
    w.All ok isRoot ∧ ∀ cp c r, Event.call cp c (.ok r) ∈ tr → r.payload = c.neutral ∨ ∃ w1 w2, w1.All ok isRoot ∧ Serve w1 cp c r w2 := by
  have mono : ∀ {tr : List Event} {ev : Event}, (∀ q, HandedOver (tr ++ [ev]) q → q.SignatureValid → ok q.trunc) →
      ∀ q, HandedOver tr q → q.SignatureValid → ok q.trunc := by
    rintro tr ev h q ⟨cp, c, o, op, he, hm, hq⟩ hv
    exact h q ⟨cp, c, o, op, by simp [he], hm, hq⟩ hv
  have monoR : ∀ {tr : List Event} {ev : Event}, (∀ k, OwnerSet (tr ++ [ev]) k → isRoot k) → ∀ k, OwnerSet tr k → isRoot k := by
    rintro tr ev h k ⟨cp, p, n, o, he, hc⟩
    exact h k ⟨cp, p, n, o, by simp [he], hc⟩
  induction h with
  | new => exact ⟨⟨fun _ _ _ h => (nomatch h), fun _ h => (nomatch h)⟩, fun _ _ _ h => (nomatch h)⟩
  | start _ ih =>
    obtain ⟨h1, h2⟩ := ih (mono hok) (monoR hroot)
    exact ⟨h1, fun cp c r hm => h2 cp c r (by simpa using hm)⟩
  | noStart _ _ ih =>
    obtain ⟨h1, h2⟩ := ih (mono hok) (monoR hroot)
    exact ⟨h1, fun cp c r hm => h2 cp c r (by simpa using hm)⟩
  | @call tr w cp c r w' _ hs ih =>
    obtain ⟨h1, h2⟩ := ih (mono hok) (monoR hroot)
    constructor
    · cases hs with
      | answer ha hm hst =>
        refine h1.step hst (fun q hq hv => hok q ⟨cp, c, _, _, List.mem_append_right _ (.head _), hm, hq⟩ hv) ?_
        rintro k n rfl
        cases hm with
        | setRoot hn => exact hroot k ⟨cp, _, _, _, List.mem_append_right _ (.head _), ha.1 _ _ rfl, hn⟩
      | decline ha hm hst =>
        refine h1.step hst (fun q hq hv => hok q ⟨cp, c, _, _, List.mem_append_right _ (.head _), hm, hq⟩ hv) ?_
        rintro k n rfl
        cases hst
      | compute => exact h1
      | refuse => exact h1
    · intro cp' c' r' hm
      rcases List.mem_append.mp hm with hm | hm
      · exact h2 _ _ _ hm
      · simp only [List.mem_singleton, Event.call.injEq, Outcome.ok.injEq] at hm
        obtain ⟨rfl, rfl, rfl⟩ := hm
        exact .inr ⟨_, _, h1, hs⟩
  | @fault tr w cp c op w' _ _ _ hm hs ih =>
    obtain ⟨h1, h2⟩ := ih (mono hok) (monoR hroot)
    refine ⟨h1.broken hs (fun q hq hv => hok q ⟨cp, c, _, _, List.mem_append_right _ (.head _), hm, hq⟩ hv), fun cp' c' r' hm => ?_⟩
    rcases List.mem_append.mp hm with hm | hm
    · exact h2 _ _ _ hm
    · simp only [List.mem_singleton, Event.call.injEq, Outcome.ok.injEq] at hm
      obtain ⟨rfl, rfl, rfl⟩ := hm
      exact .inl rfl
  | trap _ _ ih =>
    obtain ⟨h1, h2⟩ := ih (mono hok) (monoR hroot)
    exact ⟨h1, fun cp c r hm => h2 cp c r (by simpa using hm)⟩
  | stuck _ _ ih =>
    obtain ⟨h1, h2⟩ := ih (mono hok) (monoR hroot)
    exact ⟨h1, fun cp c r hm => h2 cp c r (by simpa using hm)⟩
  | aside _ _ hs ih =>
    obtain ⟨h1, h2⟩ := ih (mono hok) (monoR hroot)
    refine ⟨h1, fun cp' c' r' hm => ?_⟩
    rcases List.mem_append.mp hm with hm | hm
    · exact h2 _ _ _ hm
    · simp only [List.mem_singleton, Event.call.injEq, Outcome.ok.injEq] at hm
      obtain ⟨rfl, rfl, rfl⟩ := hm
      exact .inr ⟨_, _, h1, hs⟩

end

section
variable [LawfulEnv]

theorem Spec.names_toPeerId (hw : Env.wasm = true) (k : PublicKey) : Names k.toPeerId.toBase58 k := by
  obtain ⟨p, hp, -, hk⟩ := C63_peer_id_roundtrip k (C60_wasm_keys hw k)
  exact ⟨p, hp, hk⟩

theorem Call.present_certs {c : Call} {a : Answer} {ds : List CertDto} (h : c.present a = .certs ds) : ∃ cs, a = .certs cs ∧ ds = cs.map Dto.ofCertificate := by
  cases a with
  | certs cs => exact ⟨cs, rfl, by cases c <;> simpa [Call.present] using h.symm⟩
  | _ => cases c <;> simp [Call.present] at h

theorem Call.present_revocations {c : Call} {a : Answer} {ds : List RevocationDto} (h : c.present a = .revocations ds) :
    ∃ rs, a = .revocations rs ∧ ds = rs.map Dto.ofRevocation := by
  cases a with
  | revocations rs => exact ⟨rs, rfl, by cases c <;> simpa [Call.present] using h.symm⟩
  | _ => cases c <;> simp [Call.present] at h

theorem Call.present_weight {c : Call} {a : Answer} {x : Nat} {p : Str} (h : c.present a = .weight x p) :
    a = .weight x ∧ ((∃ t, c = .getWeight p t) ∨ ∃ i t, c = .getWeightFrom p i t) := by
  cases a with
  | weight y => cases c <;> simp_all [Call.present]
  | _ => cases c <;> simp [Call.present] at h

/-- An answer from the graph. -/
theorem Spec.Serve.answered {w w' : World} {cp : CallParams} {c : Call} {r : Res Payload} (h : Serve w cp c r w') (hn : r.payload ≠ c.neutral)
    (hc : ∀ p, Computes c p → r.payload ≠ p) : ∃ op a, Means cp c op ∧ w.Step op (.ok a) w' ∧ r.payload = c.present a := by
  cases h with
  | answer _ hm hs => exact ⟨_, _, hm, hs, rfl⟩
  | decline => exact absurd rfl hn
  | compute _ h => exact absurd rfl (hc _ h)
  | refuse => exact absurd rfl hn

theorem Spec.World.addChain_unit {now : Dur} {w w' : World} {a : PublicKey} {ts : List Trust} {x : Answer} (h : AddChain now w a ts (.ok x) w') : x = .unit := by
  generalize e : (Outcome.ok x : Outcome TrustGraphError Answer) = o at h
  induction h with
  | done => cases e; rfl
  | refused => cases e
  | next _ _ ih => exact ih e

/-- **C124**: what the answers of the service say on behalf of honest keys, their holders have said. -/
def C124_conclusion (tr : List Event) (said : PublicKey → Statement → Prop) (honest : PublicKey → Prop) : Prop :=
  (∀ cp c r ds, Event.call cp c (.ok r) ∈ tr → r.payload = .certs ds → ∀ d ∈ ds, Vouched said honest d) ∧
  (∀ cp c r ds, Event.call cp c (.ok r) ∈ tr → r.payload = .revocations ds → ∀ d ∈ ds, ∃ a b, Names d.revokedBy a ∧ Names d.revokedPeerId b ∧
    (honest a → said a (.revocation b d.revokedAt))) ∧
  (∀ cp c r x p, Event.call cp c (.ok r) ∈ tr → r.payload = .weight x p → 0 < x → ∃ k, Names p k ∧ Recommended said honest tr k)

/-- **C124**: what is intended. -/
def C124_statement : Prop :=
  ∀ (faulty : Prop) (tr : List Event) (i : Option Instance) (f : Sql.File) (said : PublicKey → Statement → Prop) (honest : PublicKey → Prop),
    Env.wasm = true → ServiceRun faulty tr i f → offeredIn tr + 16 < 2 ^ 32 → Unforged said honest tr → C124_conclusion tr said honest

/-- The keys of a certificate of the machine are recommended. -/
theorem Spec.World.All.recommended {w : World} {tr : List Event} {said : PublicKey → Statement → Prop} {honest : PublicKey → Prop}
    (h : w.All (fun q => honest q.issuedBy → said q.issuedBy (claim q)) (OwnerSet tr)) {k : PublicKey} {c : Certificate} (hc : Admissible w.graph k c) :
    Recommended said honest tr k := by
  have hl := hc.linked
  have key : ∀ (n : Nat) t, c.chain[n]? = some t → Recommended said honest tr t.issuedFor := by
    intro n
    induction n with
    | zero => exact fun t ht => .root (h.root _ (hl.root t ht).1)
    | succ n ih =>
      intro t ht
      have hn : n < c.chain.length := by have := (List.getElem?_eq_some_iff.mp ht).1; omega
      have h1 := ih _ (List.getElem?_eq_getElem hn)
      exact h1.next (h.relation _ _ _ (hl.link n _ _ (List.getElem?_eq_getElem hn) ht)).2.2
  have h2 := hl.long
  have hlt : c.chain.length - 1 < c.chain.length := by omega
  have := key _ _ (List.getElem?_eq_getElem hlt)
  rwa [hl.target _ (List.getElem?_eq_getElem hlt)] at this

/-- **C124**, if the honest keys are not Secp256k1 keys.  Missing: Secp256k1 keys, for which it is false (`C124_fails`). -/
theorem C124_nobody_speaks_for_others_partial {faulty : Prop} {tr : List Event} {i : Option Instance} {f : Sql.File}
    {said : PublicKey → Statement → Prop} {honest : PublicKey → Prop} (hw : Env.wasm = true) (h : ServiceRun faulty tr i f)
    (hn : offeredIn tr + 16 < 2 ^ 32) (hu : Unforged said honest tr) (hk : ∀ k, honest k → k.NotSecp) : C124_conclusion tr said honest := by
  obtain ⟨w, s, hs⟩ := C107_service h hn
  have hok : ∀ q, HandedOver tr q → q.SignatureValid → honest q.trunc.issuedBy → said q.trunc.issuedBy (claim q.trunc) := by
    intro q hq hv hh
    rw [TrustRelation.issuedBy_trunc] at hh ⊢
    rw [claim_trunc]
    obtain ⟨s, h1, h2⟩ := hu q hq hh (accepts_claim hv (hk _ hh))
    rwa [← Statement.message_inj hw h2]
  obtain ⟨-, hall⟩ := hs.all (ok := fun q => honest q.issuedBy → said q.issuedBy (claim q)) hok (fun k h => h)
  have answered : ∀ cp c r, Event.call cp c (.ok r) ∈ tr → r.payload ≠ c.neutral → (∀ p, Computes c p → r.payload ≠ p) → ∃ (w1 w2 : World) (op : Op) (a : Answer),
      w1.All (fun q => honest q.issuedBy → said q.issuedBy (claim q)) (OwnerSet tr) ∧ Means cp c op ∧ w1.Step op (.ok a) w2 ∧ r.payload = c.present a := by
    intro cp c r hm hn hc
    rcases hall cp c r hm with he | ⟨w1, w2, hw1, hsv⟩
    · exact absurd he hn
    · obtain ⟨op, a, h1, h2, h3⟩ := hsv.answered hn hc
      exact ⟨w1, w2, op, a, hw1, h1, h2, h3⟩
  refine ⟨fun cp c r ds hm hp d hd => ?_, fun cp c r ds hm hp d hd => ?_, fun cp c r x p hm hp hx => ?_⟩
  · obtain ⟨w1, w2, op, a, hall, hmn, hst, e⟩ := answered cp c r hm
      (fun e => by rw [hp] at e; cases c <;> simp only [Call.neutral, reduceCtorEq, Payload.certs.injEq] at e <;> subst e <;> cases hd)
      (fun p h => by rw [hp]; cases h <;> nofun)
    rw [hp] at e
    obtain ⟨cs, rfl, rfl⟩ := Call.present_certs e.symm
    obtain ⟨x, hx, rfl⟩ := List.mem_map.mp hd
    have key : ∀ {w : World} {k : PublicKey}, w.All (fun q => honest q.issuedBy → said q.issuedBy (claim q)) (OwnerSet tr) →
        Admissible w.graph k x → Vouched said honest (Dto.ofCertificate x) := by
      intro w k hall hc
      constructor
      · intro t ht
        simp only [Dto.ofCertificate, List.getElem?_map, Option.map_eq_some_iff] at ht
        obtain ⟨t, ht, rfl⟩ := ht
        exact ⟨_, names_toPeerId hw _, (hall.relation _ _ _ (hc.linked.root t ht).2).2.2⟩
      · intro n t t' ht ht'
        simp only [Dto.ofCertificate, List.getElem?_map, Option.map_eq_some_iff] at ht ht'
        obtain ⟨t, ht, rfl⟩ := ht
        obtain ⟨t', ht', rfl⟩ := ht'
        exact ⟨_, _, names_toPeerId hw _, names_toPeerId hw _, (hall.relation _ _ _ (hc.linked.link n t t' ht ht')).2.2⟩
    cases hst with
    | add h => cases World.addChain_unit h
    | getAllCerts h => exact key (hall.collect _) ((h.2.2 x).mp hx).1
    | getAllCertsFrom h => exact key (hall.collect _) ((h.2.2 x).mp hx).1
  · obtain ⟨w1, w2, op, a, hall, hmn, hst, e⟩ := answered cp c r hm
      (fun e => by rw [hp] at e; cases c <;> simp only [Call.neutral, reduceCtorEq, Payload.revocations.injEq] at e; subst e; cases hd)
      (fun p h => by rw [hp]; cases h <;> nofun)
    rw [hp] at e
    obtain ⟨rs, rfl, rfl⟩ := Call.present_revocations e.symm
    obtain ⟨x, hx, rfl⟩ := List.mem_map.mp hd
    cases hst with
    | add h => cases World.addChain_unit h
    | getRevocations h => exact ⟨_, _, names_toPeerId hw _, names_toPeerId hw _, (hall.relation _ _ _ ((h.2 x).mp hx)).2.2⟩
  · obtain ⟨w1, w2, op, a, hall, hmn, hst, e⟩ := answered cp c r hm
      (fun e => by
        rw [hp] at e
        cases c <;> simp only [Call.neutral, reduceCtorEq, Payload.weight.injEq] at e <;> exact absurd e.1 (Nat.pos_iff_ne_zero.mp hx))
      (fun p h => by rw [hp]; cases h <;> nofun)
    rw [hp] at e
    obtain ⟨rfl, hc⟩ := Call.present_weight e.symm
    have worth : ∀ {w : World} {k : PublicKey} {p : Certificate → Prop}, w.All (fun q => honest q.issuedBy → said q.issuedBy (claim q)) (OwnerSet tr) →
        w.Worth k p x → Recommended said honest tr k := by
      rintro w k p hall ⟨root, rest, n, hadm, -⟩
      exact hall.recommended hadm
    rcases hc with ⟨t, rfl⟩ | ⟨i', t, rfl⟩
    · cases hmn with
      | getWeight hk' =>
        cases hst with
        | weight h =>
          refine ⟨_, hk', ?_⟩
          rcases h.1 with h | ⟨n, h, -⟩ | h
          · omega
          · exact .root ((hall.collect _).root _ (by rw [h]; rfl))
          · exact worth (hall.collect _) h
    · cases hmn with
      | getWeightFrom hk' _ =>
        cases hst with
        | weightFrom h =>
          refine ⟨_, hk', ?_⟩
          rcases h.1 with h | h
          · omega
          · exact worth (hall.collect _) h

/-- **C124**: a coalition of keys with no root among them, none of which any key outside has ever recommended, has no weight, whatever calls its members make.
(The keys outside are Ed25519 keys, and their holders keep their secrets.) -/
theorem C124_coalition {faulty : Prop} {tr : List Event} {i : Option Instance} {f : Sql.File} {said : PublicKey → Statement → Prop}
    {coalition : PublicKey → Prop} (hw : Env.wasm = true) (h : ServiceRun faulty tr i f) (hn : offeredIn tr + 16 < 2 ^ 32)
    (hu : Unforged said (fun k => ¬ coalition k) tr) (hk : ∀ k, ¬ coalition k → k.NotSecp) (hr : ∀ k, coalition k → ¬ OwnerSet tr k)
    (hs : ∀ a b e i, ¬ coalition a → said a (.trust b e i) → ¬ coalition b) {cp : CallParams} {c : Call} {r : Res Payload} {x : Nat} {p : Str}
    (hm : Event.call cp c (.ok r) ∈ tr) (hp : r.payload = .weight x p) {k : PublicKey} (hc : coalition k) (hpk : Names p k) : x = 0 := by
  by_contra hx
  obtain ⟨k', hk', hrec⟩ := (C124_nobody_speaks_for_others_partial hw h hn hu hk).2.2 cp c r x p hm hp (Nat.pos_of_ne_zero hx)
  cases hpk.unique hk'
  clear hm hp hpk hk' hx
  induction hrec with
  | root h => exact hr _ hc h
  | @next a b e i _ hsay ih =>
    by_cases ha : coalition a
    · exact ih ha
    · exact hs a b e i ha (hsay ha) hc

end
end TG
