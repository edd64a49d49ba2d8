/-
The interruptible Aqua functions, executed at once, are those of Model/AquaApi.
-/
import Verif.Proofs.Interleaving
import Verif.Props.AquaFlow

namespace TG
variable [Env]

/-- What it means for a program that it is a function on one node: with a part of the inputs it returns what the function returns, and changes this node alone. -/
def Prog.Does {α : Type} (p : Prog α) (net : Net Db) (inputs : List Input) (h : Str) : Outcome Empty α × Db → Prop
  | (.ok a, db) => ∃ l, l <+: inputs ∧ p.atOnce net l = some (a, net.put h db)
  | _ => True

variable {α β : Type} {net : Net Db} {h : Str}

omit [Env] in
theorem record_inv {f : α → Payload} {x : M Db Empty (Res α)} {s s' : Db} {r : Res Payload} (h : record f x s = (.ok r, s')) :
    ∃ a, x s = (.ok a, s') ∧ r = ⟨a.success, a.error, f a.payload⟩ := by
  unfold record at h
  rw [M.bind_run] at h
  rcases hx : x s with ⟨a | _ | _ | _, s''⟩ <;> rw [hx] at h <;> cases h
  exact ⟨a, rfl, rfl⟩

/-- A call that does not need the graph succeeds, or reports an error. -/
theorem Call.reply_shape {cp : CallParams} {c : Call} (h : ¬ Spec.NeedsGraph cp c) : ∃ r : Res Payload, (∀ s : Db, c.reply cp s = (.ok r, s)) ∧
    (r.success = true ∨ (r.success = false ∧ ∃ e, r.error = some e)) := by
  rcases Call.fate (S := Db) cp c with ⟨op, ha, hm, -⟩ | ⟨p, ha, hp, h'⟩ | ⟨e, ho, h'⟩ | ⟨text, t, rfl, ht, h'⟩
  · exfalso
    cases hm with
    | setRoot => exact h (ha.1 _ _ rfl)
    | _ => exact h trivial
  · exact ⟨_, h', .inl rfl⟩
  · exact ⟨_, h', .inr ⟨rfl, _, rfl⟩⟩
  · exact absurd trivial h

/-- What an issuing program does: it reads no graph, and gives a value or an error. -/
def Prog.Issues {γ : Type} (p : Prog (Option γ × Option AquaError)) (t : UInt64) (r : Option Bytes) (x : M Db Empty (Option γ × Option AquaError)) : Prop :=
  ∃ a l, (∀ db, x db = (.ok a, db)) ∧ (((∃ v, a = (some v, none)) ∧ l = [.time t, .sign r]) ∨ ((∃ e, a = (none, some e)) ∧ l <+: [.time t, .sign r])) ∧
    ∀ {δ : Type} (f : Option γ × Option AquaError → Prog δ) (net : Net Db) l', (p.bind f).atOnce net (l ++ l') = (f a).atOnce net l'

theorem AquaProg.issueTrust_issues (rl : Site) (i p : Str) (e t : UInt64) (r : Option Bytes) :
    (AquaProg.issueTrust rl i p e).Issues t r (Aqua.issueTrust (rl.at t) (fun _ => r) p e) := by
  obtain ⟨b, hb, hb'⟩ := Call.reply_shape (cp := (rl.at t).call []) (c := .getTrustBytes p e t) id
  have hbs : ∃ b' : Res Bytes, (∀ db : Db, Service.getTrustBytes ((rl.at t).call []) p e t db = (.ok b', db)) ∧ b = ⟨b'.success, b'.error, .bytes b'.payload⟩ := by
    obtain ⟨b', -, hbb⟩ := record_inv (hb ⟨[], [], []⟩)
    refine ⟨b', fun db => ?_, hbb⟩
    obtain ⟨b'', h1, h2⟩ := record_inv (hb db)
    rw [h1]
    rw [hbb] at h2
    obtain ⟨x1, x2, x3⟩ := b'
    obtain ⟨y1, y2, y3⟩ := b''
    cases h2
    rfl
  obtain ⟨b', hb1, rfl⟩ := hbs
  obtain ⟨bs, be, bp⟩ := b'
  have step : ∀ {δ : Type} (f : Option TrustDto × Option AquaError → Prog δ) (net : Net Db) l,
      ((AquaProg.issueTrust rl i p e).bind f).atOnce net (.time t :: l) =
        ((if bs then Prog.sign i bp fun
          | some signature =>
            .call rl.host ((rl.at t).call []) (.issueTrust p e t signature) fun r =>
              if r.success then .done (some r.payload.asTrust, none) else .done (none, r.error.map .service)
          | none => .done (none, some .sig)
        else .done (none, be.map .service) : Prog (Option TrustDto × Option AquaError)).bind f).atOnce net l := by
    intro δ f net l
    refine (Prog.atOnce_call (hb _)).trans ?_
    rw [Net.put_self]
    rfl
  rcases hb' with hs | ⟨hs, err, he⟩
  · simp only at hs
    subst hs
    cases r with
    | none =>
      refine ⟨(none, some .sig), [.time t, .sign none], fun db => ?_, .inr ⟨⟨_, rfl⟩, List.prefix_refl _⟩, fun f net l' => ?_⟩
      · unfold Aqua.issueTrust
        rw [M.bind_run]
        rw [show (rl.at t).now = t from rfl, hb1]
        rfl
      · rw [List.cons_append, step]; rfl
    | some sg =>
      obtain ⟨v, hv, hv'⟩ := Call.reply_shape (cp := (rl.at t).call []) (c := .issueTrust p e t sg) id
      have hvs : ∀ db : Db, ∃ v' : Res TrustDto, Service.issueTrust ((rl.at t).call []) p e t sg db = (.ok v', db) ∧ v = ⟨v'.success, v'.error, .trust v'.payload⟩ :=
        fun db => record_inv (hv db)
      refine ⟨if v.success then (some v.payload.asTrust, none) else (none, v.error.map .service), [.time t, .sign (some sg)], fun db => ?_, ?_, fun f net l' => ?_⟩
      · obtain ⟨v', h1, rfl⟩ := hvs db
        unfold Aqua.issueTrust
        rw [M.bind_run]
        rw [show (rl.at t).now = t from rfl, hb1]
        show (Service.issueTrust ((rl.at t).call []) p e t sg >>= fun r => if r.success then pure (some r.payload, none) else pure (none, r.error.map .service) :
          M Db Empty (Option TrustDto × Option AquaError)) db = _
        rw [M.bind_run, h1]
        show (if v'.success then _ else _ : M Db Empty (Option TrustDto × Option AquaError)) db = _
        obtain ⟨s1, s2, s3⟩ := v'
        cases s1 <;> rfl
      · rcases hv' with h | ⟨h, err, he⟩
        · exact .inl ⟨⟨v.payload.asTrust, by rw [h]; rfl⟩, rfl⟩
        · exact .inr ⟨⟨.service err, by rw [h, he]; rfl⟩, List.prefix_refl _⟩
      · rw [List.cons_append, step]
        refine (Prog.atOnce_call (hv _)).trans ?_
        rw [Net.put_self]
        obtain ⟨v1, v2, v3⟩ := v
        cases v1 <;> rfl
  · simp only at hs he
    subst hs he
    refine ⟨(none, some (.service err)), [.time t], fun db => ?_, .inr ⟨⟨_, rfl⟩, ⟨[.sign r], rfl⟩⟩, fun f net l' => ?_⟩
    · unfold Aqua.issueTrust
      rw [M.bind_run]
      rw [show (rl.at t).now = t from rfl, hb1]
      rfl
    · rw [List.cons_append, step]; rfl

theorem AquaProg.issueRevocation_issues (rl : Site) (i p : Str) (t : UInt64) (r : Option Bytes) :
    (AquaProg.issueRevocation rl i p).Issues t r (Aqua.issueRevocation (rl.at t) (fun _ => r) i p) := by
  obtain ⟨b, hb, hb'⟩ := Call.reply_shape (cp := (rl.at t).call []) (c := .getRevocationBytes p t) id
  have hbs : ∃ b' : Res Bytes, (∀ db : Db, Service.getRevocationBytes ((rl.at t).call []) p t db = (.ok b', db)) ∧ b = ⟨b'.success, b'.error, .bytes b'.payload⟩ := by
    obtain ⟨b', -, hbb⟩ := record_inv (hb ⟨[], [], []⟩)
    refine ⟨b', fun db => ?_, hbb⟩
    obtain ⟨b'', h1, h2⟩ := record_inv (hb db)
    rw [h1]
    rw [hbb] at h2
    obtain ⟨x1, x2, x3⟩ := b'
    obtain ⟨y1, y2, y3⟩ := b''
    cases h2
    rfl
  obtain ⟨b', hb1, rfl⟩ := hbs
  obtain ⟨bs, be, bp⟩ := b'
  have step : ∀ {δ : Type} (f : Option RevocationDto × Option AquaError → Prog δ) (net : Net Db) l,
      ((AquaProg.issueRevocation rl i p).bind f).atOnce net (.time t :: l) =
        ((if bs then Prog.sign i bp fun
          | some signature =>
            .call rl.host ((rl.at t).call []) (.issueRevocation i p t signature) fun r =>
              if r.success then .done (some r.payload.asRevocation, none) else .done (none, r.error.map .service)
          | none => .done (none, some .sig)
        else .done (none, be.map .service) : Prog (Option RevocationDto × Option AquaError)).bind f).atOnce net l := by
    intro δ f net l
    refine (Prog.atOnce_call (hb _)).trans ?_
    rw [Net.put_self]
    rfl
  rcases hb' with hs | ⟨hs, err, he⟩
  · simp only at hs
    subst hs
    cases r with
    | none =>
      refine ⟨(none, some .sig), [.time t, .sign none], fun db => ?_, .inr ⟨⟨_, rfl⟩, List.prefix_refl _⟩, fun f net l' => ?_⟩
      · unfold Aqua.issueRevocation
        rw [M.bind_run]
        rw [show (rl.at t).now = t from rfl, hb1]
        rfl
      · rw [List.cons_append, step]; rfl
    | some sg =>
      obtain ⟨v, hv, hv'⟩ := Call.reply_shape (cp := (rl.at t).call []) (c := .issueRevocation i p t sg) id
      have hvs : ∀ db : Db, ∃ v' : Res RevocationDto, Service.issueRevocation ((rl.at t).call []) i p t sg db = (.ok v', db) ∧ v = ⟨v'.success, v'.error, .revocation v'.payload⟩ :=
        fun db => record_inv (hv db)
      refine ⟨if v.success then (some v.payload.asRevocation, none) else (none, v.error.map .service), [.time t, .sign (some sg)], fun db => ?_, ?_, fun f net l' => ?_⟩
      · obtain ⟨v', h1, rfl⟩ := hvs db
        unfold Aqua.issueRevocation
        rw [M.bind_run]
        rw [show (rl.at t).now = t from rfl, hb1]
        show (Service.issueRevocation ((rl.at t).call []) i p t sg >>= fun r => if r.success then pure (some r.payload, none) else pure (none, r.error.map .service) :
          M Db Empty (Option RevocationDto × Option AquaError)) db = _
        rw [M.bind_run, h1]
        show (if v'.success then _ else _ : M Db Empty (Option RevocationDto × Option AquaError)) db = _
        obtain ⟨s1, s2, s3⟩ := v'
        cases s1 <;> rfl
      · rcases hv' with h | ⟨h, err, he⟩
        · exact .inl ⟨⟨v.payload.asRevocation, by rw [h]; rfl⟩, rfl⟩
        · exact .inr ⟨⟨.service err, by rw [h, he]; rfl⟩, List.prefix_refl _⟩
      · rw [List.cons_append, step]
        refine (Prog.atOnce_call (hv _)).trans ?_
        rw [Net.put_self]
        obtain ⟨v1, v2, v3⟩ := v
        cases v1 <;> rfl
  · simp only at hs he
    subst hs he
    refine ⟨(none, some (.service err)), [.time t], fun db => ?_, .inr ⟨⟨_, rfl⟩, ⟨[.sign r], rfl⟩⟩, fun f net l' => ?_⟩
    · unfold Aqua.issueRevocation
      rw [M.bind_run]
      rw [show (rl.at t).now = t from rfl, hb1]
      rfl
    · rw [List.cons_append, step]; rfl

/-- A program that ends with a call. -/
theorem Prog.does_call {cp : CallParams} {c : Call} {k : Res Payload → Prog β} {f : Res Payload → β} {x : M Db Empty β} (hk : ∀ r, k r = .done (f r))
    (hx : x (net h) = (c.reply cp >>= fun r => pure (f r) : M Db Empty β) (net h)) : (Prog.call h cp c k).Does net [] h (x (net h)) := by
  rw [hx, M.bind_run]
  rcases hc : c.reply cp (net h) with ⟨_ | _ | _ | _, s⟩
  · refine ⟨[], List.prefix_refl _, ?_⟩
    rw [Prog.atOnce_call hc, hk]; rfl
  all_goals trivial

theorem Prog.Does.time {k : UInt64 → Prog α} {l : List Input} {t : UInt64} {o : Outcome Empty α × Db} {h' : Str} (hk : (k t).Does net l h o) :
    (Prog.time h' k).Does net (.time t :: l) h o := by
  rcases o with ⟨_ | _ | _ | _, s⟩
  · obtain ⟨l', hl, he⟩ := hk
    exact ⟨.time t :: l', (List.prefix_cons_inj _).mpr hl, he⟩
  all_goals trivial

/-- An issuing program and then an import. -/
theorem Prog.Issues.import {γ : Type} {p : Prog (Option γ × Option AquaError)} {t : UInt64} {r : Option Bytes} {x : M Db Empty (Option γ × Option AquaError)}
    (hi : p.Issues t r x) {f : Option γ × Option AquaError → Prog α} {y : Option γ × Option AquaError → M Db Empty α} {t₂ : UInt64} (db : Db)
    (hv : ∀ v, (f (some v, none)).Does net [.time t₂] h (y (some v, none) (net h)))
    (he : ∀ e, ∃ a, f (none, some e) = .done a ∧ ∀ s, y (none, some e) s = (.ok a, s)) :
    (p.bind f).Does net [.time t, .sign r, .time t₂] h ((M.lift (x db).1 >>= y : M Db Empty α) (net h)) := by
  obtain ⟨a, l, hx, hl, hp⟩ := hi
  have hrun : (M.lift (x db).1 >>= y : M Db Empty α) (net h) = y a (net h) := by
    rw [hx db, M.bind_run]; rfl
  rw [hrun]
  rcases hl with ⟨⟨v, rfl⟩, rfl⟩ | ⟨⟨e, rfl⟩, hl⟩
  · have := hv v
    revert this
    rcases y (some v, none) (net h) with ⟨_ | _ | _ | _, s⟩
    · rintro ⟨l', hl', ha⟩
      exact ⟨_, (List.prefix_append_right_inj [.time t, .sign r]).mpr hl', (hp f net l').trans ha⟩
    all_goals exact id
  · obtain ⟨a, ha, hy⟩ := he e
    rw [hy]
    refine ⟨l, hl.trans ⟨[.time t₂], rfl⟩, ?_⟩
    have := hp f net []
    rw [List.append_nil] at this
    rw [this, ha, Net.put_self]
    rfl

omit [Env] in
theorem report_record {f : α → Payload} (x : M Db Empty (Res α)) (s : Db) :
    (do let e ← (do let r ← x; pure (Aqua.errorOf r) : M Db Empty (Option AquaError)); pure (AquaResult.error e) : M Db Empty AquaResult) s =
      (record f x >>= fun r => pure (AquaResult.error (AquaProg.errorOf r)) : M Db Empty AquaResult) s := by
  rw [M.bind_run, M.bind_run, M.bind_run, record, M.bind_run]
  rcases x s with ⟨_ | _ | _ | _, s'⟩ <;> rfl

omit [Env] in
theorem bind_assoc_run {γ : Type} (o : Outcome Empty γ) (y : γ → M Db Empty (Option AquaError)) (s : Db) :
    (do let e ← (M.lift o >>= y); pure (AquaResult.error e) : M Db Empty AquaResult) s =
      (M.lift o >>= fun a => do let e ← y a; pure (AquaResult.error e) : M Db Empty AquaResult) s := by
  rw [M.bind_run, M.bind_run, M.bind_run]
  cases o <;> rfl

omit [Env] in
theorem Prog.bind_assoc {γ : Type} (p : Prog α) (f : α → Prog β) (g : β → Prog γ) : (p.bind f).bind g = p.bind fun a => (f a).bind g := by
  induction p with
  | done a => rfl
  | wait => rfl
  | time h k ih => exact congrArg _ (funext ih)
  | sign s b k ih => exact congrArg _ (funext ih)
  | call h cp c k ih => exact congrArg _ (funext ih)

theorem AquaProg.importTrust_does (s : Site) (o0 o1 : List Tetraplet) (t : TrustDto) (i : Str) (t₂ : UInt64) (net : Net Db) :
    ((AquaProg.importTrust s o0 o1 t i).bind fun e => Prog.done (AquaResult.error e)).Does net [.time t₂] s.host
      ((do let e ← Aqua.importTrust (s.at t₂) o0 o1 t i; pure (AquaResult.error e) : M Db Empty AquaResult) (net s.host)) :=
  Prog.Does.time (Prog.does_call (fun _ => rfl) (report_record _ _))

theorem AquaProg.importRevocation_does (s : Site) (o0 : List Tetraplet) (v : RevocationDto) (t₂ : UInt64) (net : Net Db) :
    ((AquaProg.importRevocation s o0 v).bind fun e => Prog.done (AquaResult.error e)).Does net [.time t₂] s.host
      ((do let e ← Aqua.importRevocation (s.at t₂) o0 v; pure (AquaResult.error e) : M Db Empty AquaResult) (net s.host)) :=
  Prog.Does.time (Prog.does_call (fun _ => rfl) (report_record (f := fun _ => .unit) _ _))

theorem Prog.Issues.alone {γ : Type} {p : Prog (Option γ × Option AquaError)} {t : UInt64} {r : Option Bytes} {x : M Db Empty (Option γ × Option AquaError)}
    (hi : p.Issues t r x) (g : Option γ × Option AquaError → α) (net : Net Db) (h : Str) :
    (p.bind fun a => .done (g a)).Does net [.time t, .sign r] h ((do let a ← x; pure (g a) : M Db Empty α) (net h)) := by
  obtain ⟨a, l, hx, hl, hp⟩ := hi
  rw [M.bind_run, hx]
  have := hp (fun a => .done (g a)) net []
  rw [List.append_nil] at this
  refine ⟨l, ?_, ?_⟩
  · rcases hl with ⟨-, rfl⟩ | ⟨-, hl⟩
    · exact List.prefix_refl _
    · exact hl
  · rw [this, Net.put_self]; rfl

omit [Env] in
theorem append_run (x : M Db Empty (Option AquaError)) (s : Db) :
    (do let e ← (do let e ← x; pure (Aqua.appendError e) : M Db Empty (Option AquaError)); pure (AquaResult.error e) : M Db Empty AquaResult) s =
      (do let e ← x; pure (AquaResult.error e) : M Db Empty AquaResult) s := by
  rw [M.bind_run, M.bind_run, M.bind_run]
  rcases x s with ⟨_ | _ | _ | _, s'⟩ <;> rfl

omit [Env] in
theorem Net.put_put (net : Net Db) (h : Str) (s s' : Db) : (net.put h s).put h s' = net.put h s' := by
  funext h'
  unfold Net.put
  split <;> rfl

omit [Env] in
theorem Net.put_get (net : Net Db) (h : Str) (s : Db) : net.put h s h = s := if_pos rfl

/-- A program that calls and goes on at the same node. -/
theorem Prog.does_then {cp : CallParams} {c : Call} {k : Res Payload → Prog β} {y : Res Payload → M Db Empty β} {l : List Input}
    (hk : ∀ r net, (k r).Does net l h (y r (net h))) : (Prog.call h cp c k).Does net l h ((c.reply cp >>= y : M Db Empty β) (net h)) := by
  rw [M.bind_run]
  rcases hc : c.reply cp (net h) with ⟨r | _ | _ | _, s⟩
  · have := hk r (net.put h s)
    rw [Net.put_get] at this
    revert this
    show Prog.Does _ _ _ _ (y r s) → Prog.Does _ _ _ _ (y r s)
    rcases y r s with ⟨_ | _ | _ | _, s'⟩
    · rintro ⟨l', hl, he⟩
      exact ⟨l', hl, by rw [Prog.atOnce_call hc, he, Net.put_put]⟩
    all_goals exact id
  all_goals trivial

/-- The programs executed at once are the functions of Model/AquaApi. -/
theorem C109_same_functions (f : AquaFn) (net : Net Db) (t₁ t₂ : UInt64) (r : Option Bytes) :
    f.prog.Does net (f.asks t₁ r t₂) f.site.host (f.plain t₁ r t₂ (net f.relay.host) (net f.site.host)) := by
  cases f with
  | setRoot s o p n => exact Prog.does_call (fun _ => rfl) rfl
  | importTrust s o0 o1 t i => exact AquaProg.importTrust_does ..
  | importRevocation s o0 v => exact AquaProg.importRevocation_does ..
  | issueTrust s i p e => exact (AquaProg.issueTrust_issues s i p e t₁ r).alone (fun x => AquaResult.trust x.1 x.2) net s.host
  | issueRevocation s b p => exact (AquaProg.issueRevocation_issues s b p t₁ r).alone (fun x => AquaResult.revocation x.1 x.2) net s.host
  | addTrust rl s o0 o1 i p e =>
    show Prog.Does (Prog.bind (Prog.bind _ _) _) _ _ _ _
    rw [Prog.bind_assoc]
    refine (congrArg (Prog.Does _ _ _ _) (bind_assoc_run _ _ _)).mpr ?_
    exact (AquaProg.issueTrust_issues rl i p e t₁ r).import (net rl.host) (fun v => (congrArg (Prog.Does _ _ _ _) (append_run _ _)).mpr (AquaProg.importTrust_does ..)) (fun e => ⟨_, rfl, fun _ => rfl⟩)
  | revoke rl s o0 b p =>
    show Prog.Does (Prog.bind (Prog.bind _ _) _) _ _ _ _
    rw [Prog.bind_assoc]
    refine (congrArg (Prog.Does _ _ _ _) (bind_assoc_run _ _ _)).mpr ?_
    exact (AquaProg.issueRevocation_issues rl b p t₁ r).import (net rl.host) (fun v => (congrArg (Prog.Does _ _ _ _) (append_run _ _)).mpr (AquaProg.importRevocation_does ..)) (fun e => ⟨_, rfl, fun _ => rfl⟩)
  | addRootTrust rl s o0 o1 o p n e =>
    show Prog.Does (Prog.bind (Prog.bind _ _) _) _ _ _ _
    rw [Prog.bind_assoc]
    refine (congrArg (Prog.Does _ _ _ _) (bind_assoc_run _ _ _)).mpr ?_
    refine (AquaProg.issueTrust_issues rl p p e t₁ r).import (net rl.host) (fun v => ?_) (fun e => ⟨_, rfl, fun _ => rfl⟩)
    refine (congrArg (Prog.Does _ _ _ _) (?_ : _ = (record (fun _ => Payload.unit) (Aqua.setRoot (s.at 0) o p n) >>= fun r => if r.success then
        (do let e ← Aqua.importTrust (s.at t₂) o0 o1 v p; pure (AquaResult.error e)) else pure (.error (r.error.map .service)) : M Db Empty AquaResult) (net s.host))).mpr
      (Prog.does_then fun r net => ?_)
    · show ((Aqua.setRoot (s.at 0) o p n >>= fun r => if r.success then (do let e ← Aqua.importTrust (s.at t₂) o0 o1 v p; pure (Aqua.appendError e))
        else pure (r.error.map .service)) >>= fun e => pure (AquaResult.error e) : M Db Empty AquaResult) (net s.host) = _
      unfold record
      rw [M.bind_run, M.bind_run, M.bind_run, M.bind_run]
      rcases Aqua.setRoot (s.at 0) o p n (net s.host) with ⟨⟨_ | _, e, u⟩ | _ | _ | _, s'⟩
      · rfl
      · exact append_run _ _
      all_goals rfl
    · show Prog.Does (Prog.bind (if r.success then _ else _) _) _ _ _ ((if r.success then _ else _ : M Db Empty AquaResult) _)
      split
      · exact AquaProg.importTrust_does ..
      · exact ⟨[], List.nil_prefix, by rw [Net.put_self]; rfl⟩
  | _ => exact Prog.Does.time (Prog.does_call (fun _ => rfl) rfl)

end TG
