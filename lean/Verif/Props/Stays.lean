/-
Property C121: what is in force stays in force, and can be renewed without a gap.
-/
import Verif.Props.Carry
import Verif.Props.Containment
import Verif.Props.SetRoot

namespace TG
variable [Env]

/-- Calls, with times up to `T`, in which nothing is submitted between two of the keys but trusts that live at `T`.  Anything may be submitted that
is signed by, or about, any other key; forged relations may be handed over; roots may be set. -/
def Spec.Sustains (keys : List PublicKey) (T : Dur) (op : Op) : Prop :=
  (∀ t, op.time = some t → asI64 t.secs ≤ asI64 T.secs) ∧
  ∀ q, op.Submits q → q.issuedBy ∈ keys → q.issuedFor ∈ keys → ∃ a, q = .auth a ∧ Spec.Live a.trust T

/-- As `Sustains`, but nothing at all is submitted between two of the keys. -/
def Spec.Spares (keys : List PublicKey) (T : Dur) (op : Op) : Prop :=
  (∀ t, op.time = some t → asI64 t.secs ≤ asI64 T.secs) ∧ ∀ q, op.Submits q → ¬ (q.issuedBy ∈ keys ∧ q.issuedFor ∈ keys)

/-- The part of a graph between the given keys. -/
def Spec.Snapshot.among (g : Spec.Snapshot) (keys : List PublicKey) : Spec.Snapshot where
  root := g.root
  trusted k t := g.trusted k t ∧ k ∈ keys ∧ t.issuedFor ∈ keys
  revoked a b := g.revoked a b ∧ a ∈ keys ∧ b ∈ keys

theorem Spec.Admissible.among {g : Spec.Snapshot} {k : PublicKey} {c : Certificate} :
    Spec.Admissible (g.among c.keys) k c ↔ Spec.Admissible g k c := by
  have hm : ∀ {i : Nat} {t : Trust}, c.chain[i]? = some t → t.issuedFor ∈ c.keys := fun h => List.mem_map_of_mem (List.mem_of_getElem? h)
  constructor
  · intro h
    exact {
      linked := {
        long := h.linked.long
        root := fun t ht => ⟨(h.linked.root t ht).1, (h.linked.root t ht).2.1⟩
        link := fun i a b ha hb => (h.linked.link i a b ha hb).1
        target := h.linked.target }
      noRevisit := h.noRevisit
      unrevoked := fun i j a b hij ha hb hl hr => h.unrevoked i j a b hij ha hb hl ⟨hr, hm ha, hm hb⟩ }
  · intro h
    exact {
      linked := {
        long := h.linked.long
        root := fun t ht => ⟨(h.linked.root t ht).1, (h.linked.root t ht).2, hm ht, hm ht⟩
        link := fun i a b ha hb => ⟨h.linked.link i a b ha hb, hm ha, hm hb⟩
        target := h.linked.target }
      noRevisit := h.noRevisit
      unrevoked := fun i j a b hij ha hb hl hr => h.unrevoked i j a b hij ha hb hl hr.1 }

/-- An admissible certificate, at another time at which its trusts live. -/
theorem Spec.Admissible.atTime {db : Db} {k : PublicKey} {c : Certificate} {now T : Dur} (h : Spec.Admissible (db.snapshot now) k c)
    (hlive : ∀ t ∈ c.chain, Spec.Live t T) : Spec.Admissible (db.snapshot T) k c where
  linked := {
    long := h.linked.long
    root := fun t ht => ⟨(h.linked.root t ht).1, (h.linked.root t ht).2.1, hlive t (List.mem_of_getElem? ht)⟩
    link := fun i a b ha hb => ⟨(h.linked.link i a b ha hb).1, hlive b (List.mem_of_getElem? hb)⟩
    target := h.linked.target }
  noRevisit := h.noRevisit
  unrevoked := fun i j a b hij ha hb hl hr => by
    obtain ⟨r, h1, h2⟩ := hr
    exact h.unrevoked i j a b hij ha hb hl ⟨r, h1, h2⟩

theorem Db.rootFactor_kept {db : Db} {k : PublicKey} {f : Nat} (h : db.rootFactor k = some f) (pk : PublicKey) (n : Nat) :
    (db.addRoot pk n).rootFactor k = some f := by
  unfold Db.rootFactor Db.addRoot at *
  rw [List.find?_append]
  rcases hf : db.roots.find? (fun r => r.publicKey = keyText k) with _ | row
  · rw [hf] at h; cases h
  · rw [hf] at h
    simpa only [hf, Option.some_or] using h

/-- Roots stay roots, with the same weight. -/
def Spec.KeepsRoots (db db' : Db) : Prop := ∀ k f, db.rootFactor k = some f → db'.rootFactor k = some f

theorem Spec.KeepsRoots.root {db db' : Db} (h : Spec.KeepsRoots db db') {now now' : Dur} {k : PublicKey} (hk : (db.snapshot now).root k) :
    (db'.snapshot now').root k := by
  obtain ⟨f, hf⟩ := Option.isSome_iff_exists.mp (Db.rootFactor_isSome.mpr hk)
  exact Db.rootFactor_isSome.mp (by rw [h k f hf]; rfl)

theorem Spec.KeepsRoots.certWeight {db db' : Db} (h : Spec.KeepsRoots db db') {c c' : Certificate} (hk : c'.keys = c.keys)
    (hroot : ∀ t, c.chain[0]? = some t → (db.rootFactor t.issuedFor).isSome) : db'.certWeight c' = db.certWeight c := by
  rw [Db.certWeight_congr (rfl : db'.roots = db'.roots) hk]
  unfold Db.certWeight
  rcases hc : c.chain with _ | ⟨t, ts⟩
  · rfl
  · obtain ⟨f, hf⟩ := Option.isSome_iff_exists.mp (hroot t (by rw [hc]; rfl))
    dsimp only
    rw [h _ f hf, hf]

/-- What a sustaining history does to the graph between the keys. -/
theorem Spec.sustained {keys : List PublicKey} {T : Dur} {db db' : Db} (hl : Later (Spec.Sustains keys T) db db') :
    Spec.SnapLe ((db.snapshot T).among keys) ((db'.snapshot T).among keys) ∧ Spec.KeepsRoots db db' := by
  have hq : Quiet (fun d d' : Db => Spec.SnapLe ((d.snapshot T).among keys) ((d'.snapshot T).among keys) ∧ Spec.KeepsRoots d d') :=
    ⟨fun _ => ⟨.refl _, fun _ _ h => h⟩, fun _ _ _ h1 h2 => ⟨h1.1.trans h2.1, fun k f h => h2.2 k f (h1.2 k f h)⟩,
      fun _ _ => ⟨.refl _, fun _ _ h => h⟩⟩
  induction hl with
  | refl => exact hq.refl _
  | weather fs _ ih => exact hq.trans _ _ _ ih (hq.faults _ fs)
  | @step d op hok _ ih =>
    refine hq.trans _ _ _ ih (Op.run_steps hq op ?_ ?_ ?_ d)
    · intro t ht d
      refine ⟨⟨fun _ h => h, ?_, ?_⟩, fun _ _ h => h⟩
      · rintro k x ⟨⟨h1, h2⟩, h3⟩
        refine ⟨x, ⟨⟨(Db.stored_collect t).mpr ⟨h1, fun a e => ?_⟩, h2⟩, h3⟩, rfl⟩
        cases e
        exact lt_of_le_of_lt (hok.1 t ht) h2
      · rintro a b ⟨⟨r, h1, h2⟩, h3⟩
        exact ⟨⟨r, ((Db.stored_collect t).mp h1).1, h2⟩, h3⟩
    · intro q hoff hv _ d _
      refine ⟨⟨fun _ h => h, ?_, ?_⟩, fun _ _ h => h⟩
      · rintro k x ⟨⟨h1, h2⟩, h3, h4⟩
        by_cases hp : x.issuedFor = q.issuedFor ∧ k = q.issuedBy
        · obtain ⟨e1, rfl⟩ := hp
          obtain ⟨a, rfl, ha⟩ := hok.2 q ⟨hoff, hv⟩ h3 (e1 ▸ h4)
          exact ⟨a.trust.trunc, ⟨⟨Db.stored_put.mpr (.inl rfl), ha⟩, h3, show a.trust.issuedFor ∈ keys from (show x.issuedFor = a.trust.issuedFor from e1) ▸ h4⟩, e1.symm⟩
        · exact ⟨x, ⟨⟨Db.stored_put.mpr (.inr ⟨h1, hp⟩), h2⟩, h3, h4⟩, rfl⟩
      · rintro a b ⟨⟨r, h1, rfl, rfl⟩, h3, h4⟩
        rcases Db.stored_put.mp h1 with e | ⟨h1, -⟩
        · have eb := congrArg TrustRelation.issuedBy e
          have ef := congrArg TrustRelation.issuedFor e
          rw [TrustRelation.trunc_issuedBy] at eb
          rw [TrustRelation.trunc_issuedFor] at ef
          obtain ⟨a, rfl, -⟩ := hok.2 q ⟨hoff, hv⟩ (eb ▸ h3) (ef ▸ h4)
          cases e
        · exact ⟨⟨r, h1, rfl, rfl⟩, h3, h4⟩
    · rintro pk n rfl d
      exact ⟨⟨fun k h => Spec.KeepsRoots.root (db := d) (now := T) (now' := T) (fun k f h => Db.rootFactor_kept h _ _) h, fun _ x h => ⟨x, h, rfl⟩, fun _ _ h => h⟩,
        fun k f h => Db.rootFactor_kept h _ _⟩

/-- **C121.**  Let a certificate be returned, and let its trusts live until after `T`.  Whatever calls are made by whomever with times up to `T`, and whatever
SQL statements fail, if nothing is submitted between two keys of the certificate but trusts that live at `T`, then at `T` a certificate along the same
keys is returned, and it is worth as much. -/
theorem C121_path_stays {db db' s s' : Db} {k : PublicKey} {now T : Dur} {cs cs' : List Certificate} {c : Certificate} (hr : Reachable db)
    (h : TrustGraph.getAllCerts k now db = (.ok cs, s)) (hc : c ∈ cs) (hlive : ∀ t ∈ c.chain, Spec.Live t T)
    (hl : Later (Spec.Sustains c.keys T) db db') (h' : TrustGraph.getAllCerts k T db' = (.ok cs', s')) :
    (∃ c' ∈ cs', c'.keys = c.keys) ∧
    (db'.relations.length + 16 < 2 ^ 32 → ∀ w r, TrustGraph.weight k T db' = (.ok w, r) → db.certWeight c ≤ w) := by
  have ha := ((C02_complete_exactly_once hr.healthy h).2 c).mp hc
  have hh' := (hl.reachable hr).healthy
  obtain ⟨hle, hroots⟩ := Spec.sustained hl
  obtain ⟨c', hc', hk⟩ := (Spec.Admissible.among.mpr (ha.atTime hlive)).lift hle
  rw [← hk] at hc'
  have hc'' := Spec.Admissible.among.mp hc'
  refine ⟨⟨c', ((C02_complete_exactly_once hh' h').2 c').mpr hc'', hk⟩, fun hn w r hw => ?_⟩
  exact (weight_ok hh' hn hw).2 (.inr (.inr ⟨c', hc'', (hroots.certWeight hk fun t ht => Db.rootFactor_isSome.mpr (ha.linked.root t ht).1).symm⟩))

/-- **C121**, the certificate itself: if nothing is submitted between two of its keys, the certificate is still returned. -/
theorem C121_certificate_stays {db db' s s' : Db} {k : PublicKey} {now T : Dur} {cs cs' : List Certificate} {c : Certificate} (hr : Reachable db)
    (h : TrustGraph.getAllCerts k now db = (.ok cs, s)) (hc : c ∈ cs) (hlive : ∀ t ∈ c.chain, Spec.Live t T)
    (hl : Later (Spec.Spares c.keys T) db db') (h' : TrustGraph.getAllCerts k T db' = (.ok cs', s')) : c ∈ cs' := by
  have ha := (((C02_complete_exactly_once hr.healthy h).2 c).mp hc).atTime hlive
  refine ((C02_complete_exactly_once (hl.reachable hr).healthy h').2 c).mpr ?_
  obtain ⟨hle, hroots⟩ := Spec.sustained (hl.mono (ok' := Spec.Sustains c.keys T) fun op ho => ⟨ho.1, fun q hq h1 h2 => absurd ⟨h1, h2⟩ (ho.2 q hq)⟩)
  refine Spec.Admissible.among.mp (Spec.Admissible.mono (g := (db.snapshot T).among c.keys) (fun k => hle.root k) ?_ hle.revoked
    (Spec.Admissible.among.mpr ha))
  rintro by' t ⟨h1, h2, h3⟩
  refine ⟨?_, h2, h3⟩
  have hq : Quiet (fun d d' : Db => (d.snapshot T).trusted by' t → (d'.snapshot T).trusted by' t) :=
    ⟨fun _ h => h, fun _ _ _ h1 h2 h => h2 (h1 h), fun _ _ h => h⟩
  clear hle hroots h' ha hc h
  induction hl with
  | refl => exact h1
  | weather fs _ ih => exact ih
  | @step d op hok _ ih =>
    refine Op.run_steps hq op ?_ ?_ ?_ d ih
    · intro t' ht' d hd
      refine ⟨(Db.stored_collect t').mpr ⟨hd.1, fun a e => ?_⟩, hd.2⟩
      cases e
      exact lt_of_le_of_lt (hok.1 t' ht') hd.2
    · intro q hq' hv _ d _ hd
      refine ⟨Db.stored_put.mpr (.inr ⟨hd.1, fun he => hok.2 q ⟨hq', hv⟩ ?_⟩), hd.2⟩
      exact ⟨he.2 ▸ h2, he.1 ▸ h3⟩
    · exact fun pk n e d hd => hd

/-- A certificate renewed: along the same keys, each trust the same or issued later, all of them valid at `now`. -/
structure Spec.Renews (c c' : Certificate) (now : Dur) : Prop where
  keys : c'.keys = c.keys
  valid : ∀ k t, Spec.Edge c'.chain k t → t.verify k now = .ok ()
  live : ∀ t ∈ c'.chain, Spec.Live t now
  /-- Times are whole seconds. -/
  whole : ∀ t ∈ c'.chain, t.WholeSeconds
  newer : ∀ (i : Nat) t t', c.chain[i]? = some t → c'.chain[i]? = some t' → t' = t ∨ t.issuedAt.total < t'.issuedAt.total

theorem Spec.issuers_keys {ts ts' : List Trust} (h : ts'.map (·.issuedFor) = ts.map (·.issuedFor)) : Spec.issuers ts' = Spec.issuers ts := by
  rcases ts with _ | ⟨t, ts⟩
  · rw [List.map_nil, List.map_eq_nil_iff] at h
    rw [h]
  · rcases ts' with _ | ⟨t', ts'⟩
    · simp at h
    · rw [Spec.issuers, Spec.issuers, List.map_dropLast, List.map_dropLast, h]
      congr 1
      simpa using congrArg List.head? h

theorem Spec.Renews.importable {db : Db} {k : PublicKey} {c c' : Certificate} {now : Dur} (h : Spec.Renews c c' now) (hh : db.Healthy)
    (hc : Spec.Admissible (db.snapshot now) k c) (hlim : Spec.WithinLimit db c) (hun : Spec.Unrevoked (db.snapshot now) c.chain) :
    Spec.Importable db c' now := by
  have hkeys : c'.chain.map (·.issuedFor) = c.chain.map (·.issuedFor) := h.keys
  have hlen : c'.chain.length = c.chain.length := by simpa using congrArg List.length hkeys
  have hback : ∀ (i : Nat) t', c'.chain[i]? = some t' → ∃ t, c.chain[i]? = some t ∧ t.issuedFor = t'.issuedFor := fun i t' ht' =>
    Spec.keys_getElem?.mp (hkeys ▸ Spec.keys_getElem?.mpr ⟨t', ht', rfl⟩)
  refine ⟨hlen ▸ hc.linked.long, ?_, h.valid, h.live, h.whole, ?_, ?_, ?_⟩
  · intro t' ht'
    obtain ⟨t, ht, e⟩ := hback 0 t' ht'
    obtain ⟨f, hf⟩ := Option.isSome_iff_exists.mp (Db.rootFactor_isSome.mpr (hc.linked.root t ht).1)
    exact ⟨f, e ▸ hf, hlen ▸ hlim t f ht hf⟩
  · exact Spec.noRevisit_iff.mpr (hkeys ▸ Spec.noRevisit_iff.mp hc.noRevisit)
  · intro i j a' b' hij ha' hb'
    obtain ⟨a, ha, ea⟩ := hback i a' ha'
    obtain ⟨b, hb, eb⟩ := hback j b' hb'
    rw [← ea, ← eb]
    exact hun i j a b (by omega) ha hb
  · rintro k' t' ⟨i, hk', ht'⟩ r hr hp
    obtain ⟨t, ht, e⟩ := hback i t' ht'
    have hst := (hc.linked.edge ⟨i, Spec.issuers_keys hkeys ▸ hk', ht⟩).1
    have hr' : r = .auth ⟨t, k'⟩ := hh.stored_unique hr hst (hp.1.trans e.symm) hp.2
    rcases h.newer i t t' ht ht' with rfl | hlt
    · exact .inl hr'
    · exact .inr (hr' ▸ hlt)

/-- **C121**, renewal: a certificate that is in force at `now` can be renewed by `add` at any time before it expires, and there is no gap: from then on a certificate
along the same keys is returned and counts at every time `T` at which the new trusts live, whatever others do in the meantime. -/
theorem C121_renewal {db s : Db} {k : PublicKey} {now : Dur} {cs : List Certificate} {c c' : Certificate} (hr : Reachable db) (hf : db.NoFaults)
    (h : TrustGraph.getAllCerts k now db = (.ok cs, s)) (hc : c ∈ cs) (hlim : Spec.WithinLimit db c) (hun : Spec.Unrevoked (db.snapshot now) c.chain)
    (hren : Spec.Renews c c' now) (hn : db.relations.length + c'.chain.length + 16 < 2 ^ 32) :
    ∃ db1, TrustGraph.add c' now db = (.ok (), db1) ∧
      ∀ (T : Dur) (db' : Db), (∀ t ∈ c'.chain, Spec.Live t T) → Later (Spec.Sustains c.keys T) db1 db' →
        ∀ cs' s', TrustGraph.getAllCerts k T db' = (.ok cs', s') →
          (∃ x ∈ cs', x.keys = c.keys) ∧
          (db'.relations.length + 16 < 2 ^ 32 → ∀ w r, TrustGraph.weight k T db' = (.ok w, r) → db.certWeight c ≤ w) := by
  have ha := ((C02_complete_exactly_once hr.healthy h).2 c).mp hc
  have himp := hren.importable hr.healthy ha hlim hun
  obtain ⟨db1, h1, hall⟩ := C82_import hr hf himp hn
  have hkeys : c'.chain.map (·.issuedFor) = c.chain.map (·.issuedFor) := hren.keys
  refine ⟨db1, h1, fun T db' hT hl cs' s' h' => ?_⟩
  have hlen : c'.chain.length = c.chain.length := by simpa using congrArg List.length hkeys
  have hlt : c'.chain.length - 1 < c'.chain.length := by have := himp.long; omega
  have hlast : c'.chain.getLast? = some c'.chain[c'.chain.length - 1] := by rw [List.getLast?_eq_getElem?, List.getElem?_eq_getElem hlt]
  have hk : c'.chain[c'.chain.length - 1].issuedFor = k := by
    obtain ⟨t, ht, e⟩ := Spec.keys_getElem?.mp (hkeys ▸ Spec.keys_getElem?.mpr ⟨_, List.getElem?_eq_getElem hlt, rfl⟩)
    rw [← e]
    exact ha.linked.target t (hlen ▸ ht)
  obtain ⟨⟨x, s1, hx, hcx⟩, -⟩ := hall _ hlast T hT
  rw [hk] at hx
  have hr1 : Reachable db1 := by
    have := hr.step (.add c' now)
    rwa [show Op.run (.add c' now) db = db1 from congrArg Prod.snd h1] at this
  obtain ⟨h2, h3⟩ := C121_path_stays hr1 hx hcx hT (hren.keys.symm ▸ hl) h'
  rw [hren.keys] at h2
  refine ⟨h2, fun hn' w r hw => ?_⟩
  rw [← Db.certWeight_congr (C82_import_exactly hr hf himp hn h1).1 hren.keys]
  exact h3 hn' w r hw

end TG
