/-
Property C129: all keys are treated alike, and of dates only the order matters.
-/
import Verif.Spec.Renaming
import Verif.Props.Machine
import Verif.Props.Contract

namespace TG
open TG.Spec

namespace Spec.Renaming
variable [Env]

/-- The other way round. -/
def symm (ρ : Renaming) : Renaming where
  key a b := ρ.key b a
  date a b := ρ.date b a
  sig a b := ρ.sig b a
  one h h' := (ρ.one h h').symm
  order h h' := (ρ.order h h').symm
  half h := (ρ.half h).symm

variable {ρ : Renaming}

theorem time.symm {d d' : Dur} (h : ρ.time d d') : ρ.symm.time d' d := ⟨h.1, h.2.symm⟩

theorem trust.symm {t t' : Trust} (h : ρ.trust t t') : ρ.symm.trust t' t := ⟨h.1, h.2.symm, h.3.symm, h.4⟩

theorem revocation.symm {r r' : Revocation} (h : ρ.revocation r r') : ρ.symm.revocation r' r := ⟨h.1, h.2, h.3.symm, h.4⟩

theorem cert.symm {c c' : Certificate} (h : ρ.cert c c') : ρ.symm.cert c' c := by
  refine List.Forall₂.flip (h.imp ?_)
  intro a b hab
  exact hab.symm

theorem date_eq {x x' y y' : UInt64} (h : ρ.date x x') (h' : ρ.date y y') : x = y ↔ x' = y' := by
  have h1 := ρ.order h h'
  have h2 := ρ.order h' h
  rw [UInt64.lt_iff_toNat_lt, UInt64.lt_iff_toNat_lt] at h1 h2
  rw [← UInt64.toNat_inj, ← UInt64.toNat_inj]
  omega

theorem time.total_lt {d d' e e' : Dur} (h : ρ.time d d') (h' : ρ.time e e') : d.total < e.total ↔ d'.total < e'.total := by
  have h1 := ρ.order h.1 h'.1
  have h2 := date_eq h.1 h'.1
  rw [UInt64.lt_iff_toNat_lt, UInt64.lt_iff_toNat_lt] at h1
  rw [← UInt64.toNat_inj, ← UInt64.toNat_inj] at h2
  have n1 := d.nanos.isLt
  have n2 := e.nanos.isLt
  have n3 := congrArg Fin.val h.2
  have n4 := congrArg Fin.val h'.2
  unfold Dur.total
  omega

theorem time.trunc {d d' : Dur} (h : ρ.time d d') : ρ.time (Dur.ofSecs d.secs) (Dur.ofSecs d'.secs) := ⟨h.1, rfl⟩

theorem trust.live {t t' : Trust} {now now' : Dur} (h : ρ.trust t t') (hn : ρ.time now now') : Live t now ↔ Live t' now' := by
  have h1 := ρ.order hn.1 h.expiresAt.1
  have h2 := ρ.half hn.1
  have h3 := ρ.half h.expiresAt.1
  rw [UInt64.lt_iff_toNat_lt, UInt64.lt_iff_toNat_lt] at h1
  have n1 := now.secs.toNat_lt
  have n2 := t.expiresAt.secs.toNat_lt
  have n3 := now'.secs.toNat_lt
  have n4 := t'.expiresAt.secs.toNat_lt
  unfold Live asI64
  split <;> split <;> split <;> split <;> omega

theorem trust.trunc {t t' : Trust} (h : ρ.trust t t') : ρ.trust t.trunc t'.trunc := ⟨h.1, h.2.trunc, h.3.trunc, h.4⟩

/-- Trusts with their issuers and revocations. -/
inductive relation (ρ : Renaming) : TrustRelation → TrustRelation → Prop
  | auth {t t' a a'} : ρ.trust t t' → ρ.key a a' → relation ρ (.auth ⟨t, a⟩) (.auth ⟨t', a'⟩)
  | revocation {r r'} : ρ.revocation r r' → relation ρ (.revocation r) (.revocation r')

theorem relation.symm {q q' : TrustRelation} (h : relation ρ q q') : relation ρ.symm q' q := by
  cases h with
  | auth h h' => exact .auth h.symm h'
  | revocation h => exact .revocation h.symm

theorem relation.trunc {q q' : TrustRelation} (h : relation ρ q q') : relation ρ q.trunc q'.trunc := by
  cases h with
  | auth h h' => exact .auth h.trunc h'
  | revocation h => exact .revocation ⟨h.1, h.2, h.3.trunc, h.4⟩

theorem relation.issuedBy {q q' : TrustRelation} (h : relation ρ q q') : ρ.key q.issuedBy q'.issuedBy := by
  cases h with
  | auth h h' => exact h'
  | revocation h => exact h.2

theorem relation.issuedFor {q q' : TrustRelation} (h : relation ρ q q') : ρ.key q.issuedFor q'.issuedFor := by
  cases h with
  | auth h h' => exact h.1
  | revocation h => exact h.1

theorem relation.issuedAt {q q' : TrustRelation} (h : relation ρ q q') : ρ.time q.issuedAt q'.issuedAt := by
  cases h with
  | auth h h' => exact h.3
  | revocation h => exact h.3

/-- What the one state holds the other holds. -/
structure Into (ρ : Renaming) (w w' : World) : Prop where
  roots : ∀ k n, w.roots k = some n → ∃ k', ρ.key k k' ∧ w'.roots k' = some n
  relation : ∀ a b q, w.relation a b = some q → ∃ a' b' q', ρ.key a a' ∧ ρ.key b b' ∧ w'.relation a' b' = some q' ∧ relation ρ q q'
  issuedBy : ∀ a b q, w.relation a b = some q → q.issuedBy = a ∧ q.issuedFor = b

/-- The states correspond. -/
def world (ρ : Renaming) (w w' : World) : Prop := Into ρ w w' ∧ Into ρ.symm w' w

theorem world.symm {w w' : World} (h : world ρ w w') : world ρ.symm w' w := ⟨h.2, h.1⟩

theorem Into.roots_key {w w' : World} (h : Into ρ w w') {k k' : PublicKey} (hk : ρ.key k k') {n : Nat} (hr : w.roots k = some n) : w'.roots k' = some n := by
  obtain ⟨k2, h2, hr2⟩ := h.roots k n hr
  rwa [(ρ.one hk h2).mp rfl]

theorem world.roots {w w' : World} (h : world ρ w w') {k k' : PublicKey} (hk : ρ.key k k') : w.roots k = w'.roots k' := by
  rcases hr : w.roots k with _ | n
  · rcases hr' : w'.roots k' with _ | n
    · rfl
    · have : w.roots k = some n := h.2.roots_key (k := k') (k' := k) hk hr'
      rw [hr] at this
      cases this
  · exact (h.1.roots_key hk hr).symm

theorem Into.relation_key {w w' : World} (h : Into ρ w w') {a a' b b' : PublicKey} (ha : ρ.key a a') (hb : ρ.key b b') {q : TrustRelation}
    (hr : w.relation a b = some q) : ∃ q', w'.relation a' b' = some q' ∧ Renaming.relation ρ q q' := by
  obtain ⟨a2, b2, q', ha2, hb2, hr2, hq⟩ := h.relation a b q hr
  cases (ρ.one ha ha2).mp rfl
  cases (ρ.one hb hb2).mp rfl
  exact ⟨q', hr2, hq⟩

theorem world.none {w w' : World} (h : world ρ w w') {a a' b b' : PublicKey} (ha : ρ.key a a') (hb : ρ.key b b') (hr : w.relation a b = none) :
    w'.relation a' b' = none := by
  rcases hr' : w'.relation a' b' with _ | q
  · rfl
  · obtain ⟨q', h1, -⟩ := h.2.relation_key (a := a') (a' := a) (b := b') (b' := b) ha hb hr'
    rw [hr] at h1
    cases h1

theorem world.empty : world ρ World.empty World.empty :=
  ⟨⟨nofun, nofun, nofun⟩, ⟨nofun, nofun, nofun⟩⟩

theorem Into.collect {w w' : World} (h : Into ρ w w') {now now' : Dur} (hn : ρ.time now now') : Into ρ (w.collect now) (w'.collect now') where
  roots := h.roots
  relation a b q hq := by
    rcases hr : w.relation a b with _ | (x | x)
    · simp only [World.collect, hr] at hq
      cases hq
    · simp only [World.collect, hr] at hq
      split at hq
      case isFalse => cases hq
      case isTrue hl =>
        cases hq
        obtain ⟨a', b', q', h1, h2, h3, h4⟩ := h.relation a b _ hr
        cases h4 with
        | @auth t t' _ i' ht ha =>
          refine ⟨a', b', _, h1, h2, ?_, .auth ht ha⟩
          simp only [World.collect, h3]
          rw [if_pos ((ht.live hn).mp hl)]
    · simp only [World.collect, hr] at hq
      cases hq
      obtain ⟨a', b', q', h1, h2, h3, h4⟩ := h.relation a b _ hr
      cases h4 with
      | revocation ht =>
        refine ⟨a', b', _, h1, h2, ?_, .revocation ht⟩
        simp only [World.collect, h3]
  issuedBy a b q hq := by
    refine h.issuedBy a b q ?_
    rcases hr : w.relation a b with _ | (x | x)
    · simp only [World.collect, hr] at hq
      cases hq
    · simp only [World.collect, hr] at hq
      split at hq
      case isFalse => cases hq
      case isTrue hl => exact hq
    · simp only [World.collect, hr] at hq
      exact hq

theorem world.collect {w w' : World} (h : world ρ w w') {now now' : Dur} (hn : ρ.time now now') : world ρ (w.collect now) (w'.collect now') :=
  ⟨h.1.collect hn, h.2.collect hn.symm⟩

theorem world.update_into {w w' : World} (h : world ρ w w') {q q' : TrustRelation} (hq : Renaming.relation ρ q q') : Into ρ (w.update q) (w'.update q') where
  roots := h.1.roots
  relation a b p hp := by
    unfold World.update at hp ⊢
    dsimp only at hp ⊢
    split at hp
    case isTrue hc =>
      cases hp
      obtain ⟨rfl, rfl, hc⟩ := hc
      refine ⟨_, _, _, hq.issuedBy, hq.issuedFor, if_pos ⟨rfl, rfl, ?_⟩, hq.trunc⟩
      intro p' hp'
      obtain ⟨p, h1, h2⟩ := h.2.relation_key (a := q'.issuedBy) (a' := q.issuedBy) (b := q'.issuedFor) (b' := q.issuedFor) hq.issuedBy hq.issuedFor hp'
      exact (h2.symm.issuedAt.total_lt hq.issuedAt).mp (hc p h1)
    case isFalse hc =>
      obtain ⟨a', b', p', h1, h2, h3, h4⟩ := h.1.relation a b p hp
      refine ⟨a', b', p', h1, h2, ?_, h4⟩
      rw [if_neg, h3]
      rintro ⟨ha, hb, hd⟩
      subst ha hb
      refine hc ⟨(ρ.one h1 hq.issuedBy).mpr rfl, (ρ.one h2 hq.issuedFor).mpr rfl, ?_⟩
      intro p2 hp2
      rw [hp] at hp2
      cases hp2
      exact (h4.issuedAt.total_lt hq.issuedAt).mpr (hd p' h3)
  issuedBy a b p hp := by
    unfold World.update at hp
    dsimp only at hp
    split at hp
    case isTrue hc =>
      cases hp
      obtain ⟨rfl, rfl, -⟩ := hc
      cases q <;> exact ⟨rfl, rfl⟩
    case isFalse => exact h.1.issuedBy a b p hp

theorem world.update {w w' : World} (h : world ρ w w') {q q' : TrustRelation} (hq : Renaming.relation ρ q q') : world ρ (w.update q) (w'.update q') :=
  ⟨h.update_into hq, h.symm.update_into hq.symm⟩

theorem world.setRoot_into {w w' : World} (h : world ρ w w') {k k' : PublicKey} (hk : ρ.key k k') (n : Nat) : Into ρ (w.setRoot k n) (w'.setRoot k' n) where
  roots a m hm := by
    unfold World.setRoot at hm ⊢
    dsimp only at hm ⊢
    split at hm
    case isTrue hc =>
      obtain ⟨rfl, hc⟩ := hc
      refine ⟨k', hk, ?_⟩
      rw [if_pos ⟨rfl, (h.roots hk).symm.trans hc⟩]
      exact hm
    case isFalse hc =>
      obtain ⟨a', h1, h2⟩ := h.1.roots a m hm
      refine ⟨a', h1, ?_⟩
      rw [if_neg, h2]
      rintro ⟨-, he⟩
      rw [h2] at he
      cases he
  relation := h.1.relation
  issuedBy := h.1.issuedBy

theorem world.setRoot {w w' : World} (h : world ρ w w') {k k' : PublicKey} (hk : ρ.key k k') (n : Nat) : world ρ (w.setRoot k n) (w'.setRoot k' n) :=
  ⟨h.setRoot_into hk n, h.symm.setRoot_into hk n⟩

/-- Trusts each issued by the key of the preceding one, the first by `a`. -/
inductive Steps (w : World) : PublicKey → List Trust → Prop
  | nil {a} : Steps w a []
  | cons {a t ts} : w.graph.trusted a t → Steps w t.issuedFor ts → Steps w a (t :: ts)

theorem steps_of {w : World} {a : PublicKey} {ts : List Trust} (h0 : ∀ t, ts[0]? = some t → w.graph.trusted a t)
    (h1 : ∀ (i : Nat) x y, ts[i]? = some x → ts[i + 1]? = some y → w.graph.trusted x.issuedFor y) : Steps w a ts := by
  induction ts generalizing a with
  | nil => exact .nil
  | cons t ts ih =>
    exact .cons (h0 t rfl) (ih (fun x hx => h1 0 t x rfl hx) (fun i x y hx hy => h1 (i + 1) x y hx hy))

theorem Steps.get {w : World} {a : PublicKey} {ts : List Trust} (h : Steps w a ts) :
    (∀ t, ts[0]? = some t → w.graph.trusted a t) ∧ ∀ (i : Nat) x y, ts[i]? = some x → ts[i + 1]? = some y → w.graph.trusted x.issuedFor y := by
  induction h with
  | nil => exact ⟨nofun, nofun⟩
  | @cons a t ts ht _ ih =>
    refine ⟨fun x hx => by cases hx; exact ht, ?_⟩
    intro i x y hx hy
    cases i with
    | zero => cases hx; exact ih.1 y hy
    | succ i => exact ih.2 i x y hx hy

theorem Steps.into {w w' : World} (h : Into ρ w w') {a a' : PublicKey} (ha : ρ.key a a') {ts : List Trust} (hs : Steps w a ts) :
    ∃ ts', Steps w' a' ts' ∧ List.Forall₂ ρ.trust ts ts' := by
  induction hs generalizing a' with
  | nil => exact ⟨[], .nil, .nil⟩
  | @cons a t ts ht _ ih =>
    obtain ⟨a2, b', q', h1, h2, h3, h4⟩ := h.relation _ _ _ ht
    cases (ρ.one ha h1).mp rfl
    cases h4 with
    | @auth _ t' _ i' h4 h5 =>
      cases (ρ.one ha h5).mp rfl
      cases (ρ.one h2 h4.1).mp rfl
      obtain ⟨ts', hs, hf⟩ := ih h4.1
      exact ⟨t' :: ts', .cons h3 hs, .cons h4 hf⟩

theorem Steps.unique {w : World} {a : PublicKey} {ts1 ts2 ts' : List Trust} (h1 : Steps w a ts1) (h2 : Steps w a ts2)
    (f1 : List.Forall₂ ρ.trust ts1 ts') (f2 : List.Forall₂ ρ.trust ts2 ts') : ts1 = ts2 := by
  induction h1 generalizing ts2 ts' with
  | nil => cases f1; cases f2; rfl
  | @cons a t ts ht _ ih =>
    cases f1 with
    | cons ft f1 =>
      cases f2 with
      | @cons t2 _ _ _ ft2 f2 =>
        cases h2 with
        | cons ht2 h2 =>
          have hk : t.issuedFor = t2.issuedFor := (ρ.one ft.1 ft2.1).mpr rfl
          have e : w.relation a t.issuedFor = some (.auth ⟨t, a⟩) := ht
          have e2 : w.relation a t2.issuedFor = some (.auth ⟨t2, a⟩) := ht2
          rw [← hk, e] at e2
          cases e2
          rw [ih h2 f1 f2]

omit [Env] in
/-- Looking up in corresponding lists. -/
theorem get {α : Type} {R : α → α → Prop} {l l' : List α} (h : List.Forall₂ R l l') {i : Nat} {x : α} (hx : l'[i]? = some x) :
    ∃ y, l[i]? = some y ∧ R y x := by
  induction h generalizing i with
  | nil => cases hx
  | cons h _ ih =>
    cases i with
    | zero => cases hx; exact ⟨_, rfl, h⟩
    | succ i => exact ih hx

theorem linked_steps {w : World} {k : PublicKey} {t : Trust} {ts : List Trust} (h : Linked w.graph k (t :: ts)) : Steps w t.issuedFor (t :: ts) := by
  refine steps_of ?_ h.link
  intro x hx
  cases hx
  exact (h.root t rfl).2

theorem world.revoked {w w' : World} (h : world ρ w w') {a a' b b' : PublicKey} (ha : ρ.key a a') (hb : ρ.key b b') (hr : w'.graph.revoked a' b') :
    w.graph.revoked a b := by
  obtain ⟨r, hr⟩ := hr
  obtain ⟨q, h1, h2⟩ := h.2.relation_key (a := a') (a' := a) (b := b') (b' := b) ha hb hr
  cases h2 with
  | revocation _ => exact ⟨_, h1⟩

/-- Each certificate has its counterpart. -/
theorem world.admissible {w w' : World} (h : world ρ w w') {k k' : PublicKey} (hk : ρ.key k k') {c : Certificate} (hc : Admissible w.graph k c) :
    ∃ c', Admissible w'.graph k' c' ∧ ρ.cert c c' := by
  obtain ⟨chain⟩ := c
  obtain ⟨hl, hn, hu⟩ := hc
  rcases chain with _ | ⟨t, ts⟩
  · exact absurd hl.long (by simp)
  obtain ⟨hroot, -⟩ := hl.root t rfl
  obtain ⟨n, hroot⟩ := Option.isSome_iff_exists.mp hroot
  obtain ⟨a', ha', hroot'⟩ := h.1.roots _ _ hroot
  obtain ⟨ts', hs', hf⟩ := (linked_steps hl).into h.1 ha'
  have hg := hs'.get
  refine ⟨⟨ts'⟩, ⟨⟨?_, ?_, hg.2, ?_⟩, ?_, ?_⟩, hf⟩
  · have := hf.length_eq
    have := hl.long
    dsimp only at *
    omega
  · intro x hx
    obtain ⟨y, hy, hxy⟩ := get hf hx
    cases hy
    cases (ρ.one ha' hxy.1).mp rfl
    exact ⟨Option.isSome_iff_exists.mpr ⟨n, hroot'⟩, hg.1 x hx⟩
  · intro x hx
    obtain ⟨y, hy, hxy⟩ := get hf hx
    have hlen := hf.length_eq
    dsimp only at hx
    rw [← hlen] at hy
    exact (ρ.one hxy.1 hk).mp (hl.target y hy)
  · intro i j x y hij hx hy hxy
    obtain ⟨x0, hx0, rx⟩ := get hf hx
    obtain ⟨y0, hy0, ry⟩ := get hf hy
    exact hn i j x0 y0 hij hx0 hy0 ((ρ.one rx.1 ry.1).mpr hxy)
  · intro i j x y hij hx hy hj hr
    obtain ⟨x0, hx0, rx⟩ := get hf hx
    obtain ⟨y0, hy0, ry⟩ := get hf hy
    refine hu i j x0 y0 hij hx0 hy0 ?_ (h.revoked rx.1 ry.1 hr)
    have := hf.length_eq
    dsimp only at *
    omega

theorem admissible_unique {w : World} {k : PublicKey} {c1 c2 c' : Certificate} (h1 : Admissible w.graph k c1) (h2 : Admissible w.graph k c2)
    (f1 : ρ.cert c1 c') (f2 : ρ.cert c2 c') : c1 = c2 := by
  obtain ⟨ts1⟩ := c1
  obtain ⟨ts2⟩ := c2
  obtain ⟨ts'⟩ := c'
  rcases ts1 with _ | ⟨t1, ts1⟩
  · exact absurd h1.linked.long (by simp)
  rcases ts2 with _ | ⟨t2, ts2⟩
  · exact absurd h2.linked.long (by simp)
  have s1 := linked_steps h1.linked
  have s2 := linked_steps h2.linked
  have hk : t1.issuedFor = t2.issuedFor := by
    cases f1 with
    | cons g1 _ =>
      cases f2 with
      | cons g2 _ => exact (ρ.one g1.1 g2.1).mpr rfl
  rw [← hk] at s2
  rw [Steps.unique s1 s2 f1 f2]

omit [Env] in
/-- Lists without repetition whose elements correspond one to one. -/
theorem perm_of {α : Type} {R : α → α → Prop} {l l' : List α} (hn : l.Nodup) (hn' : l'.Nodup) (h1 : ∀ x ∈ l, ∃ y ∈ l', R x y) (h2 : ∀ y ∈ l', ∃ x ∈ l, R x y)
    (u1 : ∀ x ∈ l, ∀ y ∈ l', ∀ y2 ∈ l', R x y → R x y2 → y = y2) (u2 : ∀ x ∈ l, ∀ x2 ∈ l, ∀ y ∈ l', R x y → R x2 y → x = x2) :
    ∃ m, List.Forall₂ R l m ∧ m.Perm l' := by
  induction l generalizing l' with
  | nil =>
    refine ⟨[], .nil, ?_⟩
    rcases l' with _ | ⟨y, l'⟩
    · exact .nil
    · obtain ⟨x, hx, -⟩ := h2 y (.head _)
      cases hx
  | cons x l ih =>
    obtain ⟨y, hy, hxy⟩ := h1 x (.head _)
    obtain ⟨p, q, rfl⟩ := List.append_of_mem hy
    have hp : (p ++ y :: q).Perm (y :: (p ++ q)) := List.perm_middle
    have hn2 := hp.nodup_iff.mp hn'
    rw [List.nodup_cons] at hn hn2
    obtain ⟨m, hm, hmp⟩ := ih (l' := p ++ q) hn.2 hn2.2
      (by
        intro z hz
        obtain ⟨v, hv, hzv⟩ := h1 z (.tail _ hz)
        rcases List.mem_cons.mp (hp.mem_iff.mp hv) with rfl | hv'
        · exact absurd (u2 z (.tail _ hz) x (.head _) v hv hzv hxy) (fun e => hn.1 (e ▸ hz))
        · exact ⟨v, hv', hzv⟩)
      (by
        intro v hv
        have hv' := hp.mem_iff.mpr (.tail _ hv)
        obtain ⟨z, hz, hzv⟩ := h2 v hv'
        rcases List.mem_cons.mp hz with rfl | hz'
        · exact absurd (u1 z hz v hv' y hy hzv hxy) (fun e => hn2.1 (e ▸ hv))
        · exact ⟨z, hz', hzv⟩)
      (fun a ha b hb c hc => u1 a (.tail _ ha) b (hp.mem_iff.mpr (.tail _ hb)) c (hp.mem_iff.mpr (.tail _ hc)))
      (fun a ha b hb c hc => u2 a (.tail _ ha) b (.tail _ hb) c (hp.mem_iff.mpr (.tail _ hc)))
    exact ⟨y :: m, .cons hxy hm, (hmp.cons y).trans hp.symm⟩

/-- A condition on certificates that does not depend on names. -/
def Fair (ρ : Renaming) (p p' : Certificate → Prop) : Prop := ∀ c c', ρ.cert c c' → (p c ↔ p' c')

theorem Fair.symm {p p' : Certificate → Prop} (h : Fair ρ p p') : Fair ρ.symm p' p := fun c c' hc => (h c' c hc.symm).symm

theorem fair_true : Fair ρ (fun _ => True) (fun _ => True) := fun _ _ _ => Iff.rfl

omit [Env] in
theorem mem_of {α : Type} {R : α → α → Prop} {l l' : List α} (h : List.Forall₂ R l l') {x : α} (hx : x ∈ l) : ∃ y ∈ l', R x y := by
  induction h with
  | nil => cases hx
  | cons h _ ih =>
    rcases List.mem_cons.mp hx with rfl | hx
    · exact ⟨_, .head _, h⟩
    · obtain ⟨y, hy, hr⟩ := ih hx
      exact ⟨y, .tail _ hy, hr⟩

theorem fair_contains {a a' : PublicKey} (ha : ρ.key a a') : Fair ρ (fun c => ∃ t ∈ c.chain, t.issuedFor = a) (fun c => ∃ t ∈ c.chain, t.issuedFor = a') := by
  intro c c' hc
  constructor
  · rintro ⟨t, ht, rfl⟩
    obtain ⟨t', ht', h⟩ := mem_of hc ht
    exact ⟨t', ht', ((ρ.one ha h.1).mp rfl).symm⟩
  · rintro ⟨t, ht, rfl⟩
    obtain ⟨t', ht', h⟩ := mem_of hc.symm ht
    exact ⟨t', ht', ((ρ.one ha h.1).mpr rfl).symm⟩

theorem world.certs {w w' : World} (h : world ρ w w') {k k' : PublicKey} (hk : ρ.key k k') {p p' : Certificate → Prop} (hp : Fair ρ p p')
    {cs cs' : List Certificate} (hc : w.Certs k p cs) (hc' : w'.Certs k' p' cs') : ∃ l, List.Forall₂ ρ.cert cs l ∧ l.Perm cs' := by
  refine perm_of hc.1 hc'.1 ?_ ?_ ?_ ?_
  · intro c hm
    obtain ⟨ha, hpc⟩ := (hc.2.2 c).mp hm
    obtain ⟨c', ha', hr⟩ := h.admissible hk ha
    exact ⟨c', (hc'.2.2 c').mpr ⟨ha', (hp c c' hr).mp hpc⟩, hr⟩
  · intro c' hm
    obtain ⟨ha, hpc⟩ := (hc'.2.2 c').mp hm
    obtain ⟨c, ha', hr⟩ := h.symm.admissible (k := k') (k' := k) hk ha
    exact ⟨c, (hc.2.2 c).mpr ⟨ha', (hp c c' hr.symm).mpr hpc⟩, hr.symm⟩
  · intro c hm c1 hm1 c2 hm2 r1 r2
    exact admissible_unique (ρ := ρ.symm) ((hc'.2.2 c1).mp hm1).1 ((hc'.2.2 c2).mp hm2).1 r1.symm r2.symm
  · intro c1 hm1 c2 hm2 c' _ r1 r2
    exact admissible_unique ((hc.2.2 c1).mp hm1).1 ((hc.2.2 c2).mp hm2).1 r1 r2

theorem world.worth {w w' : World} (h : world ρ w w') {k k' : PublicKey} (hk : ρ.key k k') {p p' : Certificate → Prop} (hp : Fair ρ p p') {x : Nat}
    (hw : w.Worth k p x) : w'.Worth k' p' x := by
  obtain ⟨root, rest, n, ha, hpc, hn, rfl⟩ := hw
  obtain ⟨⟨chain⟩, ha', hr⟩ := h.admissible hk ha
  have hr' := hr
  cases hr with
  | @cons _ root' _ rest' h1 h2 =>
    refine ⟨root', rest', n, ha', (hp _ _ hr').mp hpc, h.1.roots_key h1.1 hn, ?_⟩
    rw [h2.length_eq]

theorem world.weight_iff {w w' : World} (h : world ρ w w') {k k' : PublicKey} (hk : ρ.key k k') (x : Nat) : w.Weight k x ↔ w'.Weight k' x := by
  have e : (fun y => y = 0 ∨ (∃ n, w.roots k = some n ∧ y = 2 ^ n) ∨ w.Worth k (fun _ => True) y) =
      (fun y => y = 0 ∨ (∃ n, w'.roots k' = some n ∧ y = 2 ^ n) ∨ w'.Worth k' (fun _ => True) y) := by
    funext y
    rw [h.roots hk]
    have : w.Worth k (fun _ => True) y ↔ w'.Worth k' (fun _ => True) y :=
      ⟨h.worth hk fair_true, h.symm.worth (k := k') (k' := k) hk fair_true⟩
    rw [this]
  unfold World.Weight
  rw [e]

theorem world.weightFrom_iff {w w' : World} (h : world ρ w w') {k k' a a' : PublicKey} (hk : ρ.key k k') (ha : ρ.key a a') (x : Nat) :
    w.WeightFrom k a x ↔ w'.WeightFrom k' a' x := by
  have e : (fun y => y = 0 ∨ w.Worth k (fun c => ∃ t ∈ c.chain, t.issuedFor = a) y) =
      (fun y => y = 0 ∨ w'.Worth k' (fun c => ∃ t ∈ c.chain, t.issuedFor = a') y) := by
    funext y
    have : w.Worth k (fun c => ∃ t ∈ c.chain, t.issuedFor = a) y ↔ w'.Worth k' (fun c => ∃ t ∈ c.chain, t.issuedFor = a') y :=
      ⟨h.worth hk (fair_contains ha), h.symm.worth (k := k') (k' := k) hk (fair_contains ha).symm⟩
    rw [this]
  unfold World.WeightFrom
  rw [e]

theorem world.revocations {w w' : World} (h : world ρ w w') {k k' : PublicKey} (hk : ρ.key k k') {rs rs' : List Revocation}
    (hr : w.Revocations k rs) (hr' : w'.Revocations k' rs') : ∃ l, List.Forall₂ ρ.revocation rs l ∧ l.Perm rs' := by
  have key : ∀ {ρ : Renaming} {w w' : World} {k k' : PublicKey} {rs rs' : List Revocation}, world ρ w w' → ρ.key k k' → w.Revocations k rs →
      w'.Revocations k' rs' → ∀ r ∈ rs, ∃ r' ∈ rs', ρ.revocation r r' := by
    intro ρ w w' k k' rs rs' h hk hr hr' r hm
    obtain ⟨a', b', q', h1, h2, h3, h4⟩ := h.1.relation _ _ _ ((hr.2 r).mp hm)
    cases h4 with
    | @revocation _ r' h4 =>
      refine ⟨r', (hr'.2 r').mpr ?_, h4⟩
      rw [(ρ.one hk h2).mp rfl, ← h3, (ρ.one h1 h4.2).mp rfl]
  have uniq : ∀ {ρ : Renaming} {w : World} {k : PublicKey} {rs : List Revocation}, w.Revocations k rs → ∀ r1 ∈ rs, ∀ r2 ∈ rs, ∀ r', ρ.revocation r1 r' →
      ρ.revocation r2 r' → r1 = r2 := by
    intro ρ w k rs hr r1 h1 r2 h2 r' f1 f2
    have e1 := (hr.2 r1).mp h1
    have e2 := (hr.2 r2).mp h2
    rw [(ρ.one f1.2 f2.2).mpr rfl, e2] at e1
    cases e1
    rfl
  refine perm_of hr.1 hr'.1 (key h hk hr hr') ?_ ?_ ?_
  · intro r' hm
    obtain ⟨r, h1, h2⟩ := key (ρ := ρ.symm) (k := k') (k' := k) h.symm hk hr' hr r' hm
    exact ⟨r, h1, h2.symm⟩
  · intro r _ r1 h1 r2 h2 f1 f2
    exact uniq (ρ := ρ.symm) hr' r1 h1 r2 h2 r f1.symm f2.symm
  · intro r1 h1 r2 h2 r' _ f1 f2
    exact uniq hr r1 h1 r2 h2 r' f1 f2

/-- Both trusts are accepted, or both are refused for the same reason. -/
theorem verify_cases {t t' : Trust} {a a' : PublicKey} {now now' : Dur} (ht : ρ.trust t t') (hn : ρ.time now now') (hv : Valid a t a' t') :
    (t.verify a now = .ok () ∧ t'.verify a' now' = .ok ()) ∨
      ∃ e e', t.verify a now = .err e ∧ t'.verify a' now' = .err e' ∧ (e = .expired ↔ e' = .expired) := by
  have hl : t.expiresAt.lt now = t'.expiresAt.lt now' := by
    rw [Bool.eq_iff_iff, Dur.lt_iff, Dur.lt_iff]
    exact ht.expiresAt.total_lt hn
  have c1 := Trust.verify_cases t a now
  have c2 := Trust.verify_cases t' a' now'
  have hv1 : (t.verify a now = .ok ()) ↔ (t'.verify a' now' = .ok ()) := by
    unfold Trust.verify
    rw [hl]
    split
    · exact ⟨nofun, nofun⟩
    · unfold Valid at hv
      constructor
      · intro h
        have h' := hv.mp (by
          change (Outcome.mapErr _ (a.verify _ _)) = _ at h
          rcases hx : a.verify (Trust.signatureBytes t.issuedFor t.expiresAt t.issuedAt) t.signature with u | e | _ | _ <;> rw [hx] at h <;> first | rfl | cases h)
        change (Outcome.mapErr _ (a'.verify _ _)) = _
        rw [h']
        rfl
      · intro h
        have h' := hv.mpr (by
          change (Outcome.mapErr _ (a'.verify _ _)) = _ at h
          rcases hx : a'.verify (Trust.signatureBytes t'.issuedFor t'.expiresAt t'.issuedAt) t'.signature with u | e | _ | _ <;> rw [hx] at h <;> first | rfl | cases h)
        change (Outcome.mapErr _ (a.verify _ _)) = _
        rw [h']
        rfl
  have he : ∀ (t : Trust) (a : PublicKey) (now : Dur) (e : TrustError), t.verify a now = .err e → (e = .expired ↔ t.expiresAt.lt now = true) := by
    intro t a now e h
    unfold Trust.verify at h
    split at h
    case isTrue hx => cases h; exact ⟨fun _ => hx, fun _ => rfl⟩
    case isFalse hx =>
      refine ⟨?_, fun h' => absurd h' hx⟩
      rintro rfl
      change (Outcome.mapErr _ (a.verify _ _)) = _ at h
      rcases hx : a.verify (Trust.signatureBytes t.issuedFor t.expiresAt t.issuedAt) t.signature with u | e | _ | _ <;> rw [hx] at h <;> cases h
  rcases c1 with c1 | ⟨e, c1⟩
  · exact .inl ⟨c1, hv1.mp c1⟩
  · rcases c2 with c2 | ⟨e', c2⟩
    · rw [hv1.mpr c2] at c1
      cases c1
    · refine .inr ⟨e, e', c1, c2, ?_⟩
      rw [he t a now e c1, he t' a' now' e' c2, hl]

theorem world.addTrust {w w' v v' : World} (h : world ρ w w') {t t' : Trust} {a a' : PublicKey} {now now' : Dur} (ht : ρ.trust t t') (ha : ρ.key a a')
    (hn : ρ.time now now') {y y' : Nat} (h1 : w.AddTrust a t now y v) (h2 : w'.AddTrust a' t' now' y' v') : y = y' ∧ world ρ v v' := by
  obtain ⟨-, x, hx, rfl, rfl⟩ := h1
  obtain ⟨-, x', hx', rfl, rfl⟩ := h2
  have hc := h.collect hn
  cases ((hc.weight_iff ha x).mp hx).unique hx'
  have hiff : a = t.issuedFor ↔ a' = t'.issuedFor := ρ.one ha ht.1
  have hy : (if a = t.issuedFor then x else x / 2) = (if a' = t'.issuedFor then x else x / 2) := if_congr hiff rfl rfl
  refine ⟨hy, ?_⟩
  rw [← hy]
  generalize (if a = t.issuedFor then x else x / 2) = y
  split
  · exact hc
  · exact hc.update (.auth ht ha)

theorem world.addChain {now now' : Dur} (hn : ρ.time now now') {w v : World} {a : PublicKey} {ts : List Trust} {o : Outcome TrustGraphError Answer}
    (h1 : World.AddChain now w a ts o v) : ∀ {w' v' : World} {a' : PublicKey} {ts' : List Trust} {o' : Outcome TrustGraphError Answer}, world ρ w w' → ρ.chain a ts a' ts' →
      World.AddChain now' w' a' ts' o' v' → ρ.answer o o' ∧ world ρ v v' := by
  induction h1 with
  | done =>
    intro w' v' a' ts' o' h hc h2
    cases hc
    cases h2
    exact ⟨.unit, h⟩
  | refused hv =>
    intro w' v' a' ts' o' h hc h2
    cases hc with
    | cons ha ht hval _ =>
      rcases verify_cases ht hn hval with ⟨e1, e2⟩ | ⟨e, e', e1, e2, he⟩
      · rw [e1] at hv
        cases hv
      · rw [e1] at hv
        cases hv
        cases h2 with
        | refused hv' =>
          rw [e2] at hv'
          cases hv'
          exact ⟨.trust he, h⟩
        | next hadd _ => have := hadd.1; rw [e2] at this; cases this
  | next hadd _ ih =>
    intro w' v' a' ts' o' h hc h2
    cases hc with
    | cons ha ht hval hrest =>
      rcases verify_cases ht hn hval with ⟨e1, e2⟩ | ⟨e, e', e1, e2, he⟩
      · cases h2 with
        | refused hv' => rw [e2] at hv'; cases hv'
        | next hadd' hch => exact ih (h.addTrust ht ha hn hadd hadd').2 hrest hch
      · have := hadd.1; rw [e1] at this; cases this

theorem revocation.verify_ok {r : Revocation} : r.verify = .ok () ↔ r.revokedBy.verify (Revocation.signatureBytes r.pk r.revokedAt) r.signature = .ok () := by
  unfold Revocation.verify
  rcases r.revokedBy.verify (Revocation.signatureBytes r.pk r.revokedAt) r.signature with u | e | _ | _
  · exact ⟨fun _ => rfl, fun _ => rfl⟩
  · exact ⟨nofun, nofun⟩
  · exact ⟨nofun, nofun⟩
  · exact ⟨nofun, nofun⟩

theorem world.step {w w' v v' : World} (h : world ρ w w') {p p' : Op} (hp : ρ.op p p') {o o' : Outcome TrustGraphError Answer} (h1 : w.Step p o v)
    (h2 : w'.Step p' o' v') : ρ.answer o o' ∧ world ρ v v' := by
  cases hp with
  | setRoot hk =>
    cases h1
    cases h2
    exact ⟨.unit, h.setRoot hk _⟩
  | addTrust ht ha hn hv =>
    rcases verify_cases ht hn hv with ⟨e1, e2⟩ | ⟨e, e', e1, e2, he⟩
    · cases h1 with
      | refuseTrust hx => rw [e1] at hx; cases hx
      | addTrust h1 =>
        cases h2 with
        | refuseTrust hx => rw [e2] at hx; cases hx
        | addTrust h2 =>
          obtain ⟨rfl, hw⟩ := h.addTrust ht ha hn h1 h2
          exact ⟨.weight _, hw⟩
    · cases h1 with
      | addTrust h1 => have := h1.1; rw [e1] at this; cases this
      | refuseTrust hx =>
        cases h2 with
        | addTrust h2 => have := h2.1; rw [e2] at this; cases this
        | refuseTrust hx' =>
          rw [e1] at hx
          rw [e2] at hx'
          cases hx
          cases hx'
          exact ⟨.trust he, h⟩
  | add hc hn =>
    cases h1 with
    | add h1 =>
      cases h2 with
      | add h2 => exact world.addChain hn h1 h hc h2
  | addEmpty =>
    cases h1
    cases h2
    exact ⟨.noChain, h⟩
  | revoke hr hv =>
    rw [← revocation.verify_ok, ← revocation.verify_ok] at hv
    cases h1 with
    | revoke e1 =>
      cases h2 with
      | revoke => exact ⟨.unit, h.update (.revocation hr)⟩
      | refuseRevocation e2 => rw [hv.mp e1] at e2; cases e2
    | refuseRevocation e1 =>
      cases h2 with
      | revoke e2 => rw [hv.mpr e2] at e1; cases e1
      | refuseRevocation => exact ⟨.revocation, h⟩
  | weight hk hn =>
    cases h1 with
    | weight h1 =>
      cases h2 with
      | weight h2 =>
        cases (((h.collect hn).weight_iff hk _).mp h1).unique h2
        exact ⟨.weight _, h.collect hn⟩
  | weightFrom hk ha hn =>
    cases h1 with
    | weightFrom h1 =>
      cases h2 with
      | weightFrom h2 =>
        cases (((h.collect hn).weightFrom_iff hk ha _).mp h1).unique h2
        exact ⟨.weight _, h.collect hn⟩
  | getAllCerts hk hn =>
    cases h1 with
    | getAllCerts h1 =>
      cases h2 with
      | getAllCerts h2 =>
        obtain ⟨l, hl, hp⟩ := (h.collect hn).certs hk fair_true h1 h2
        exact ⟨.certs hl hp, h.collect hn⟩
  | getAllCertsFrom hk ha hn =>
    cases h1 with
    | getAllCertsFrom h1 =>
      cases h2 with
      | getAllCertsFrom h2 =>
        obtain ⟨l, hl, hp⟩ := (h.collect hn).certs hk (fair_contains ha) h1 h2
        exact ⟨.certs hl hp, h.collect hn⟩
  | getRevocations hk =>
    cases h1 with
    | getRevocations h1 =>
      cases h2 with
      | getRevocations h2 =>
        obtain ⟨l, hl, hp⟩ := h.revocations hk h1 h2
        exact ⟨.revocations hl hp, h⟩

theorem run_inv {tr : List (Op × Outcome TrustGraphError Answer)} {p : Op × Outcome TrustGraphError Answer} {w : World} (h : World.Run False (tr ++ [p]) w) :
    ∃ v, World.Run False tr v ∧ v.Step p.1 p.2 w := by
  generalize htr : tr ++ [p] = tr' at h
  cases h with
  | start => simp at htr
  | step h1 h2 =>
    obtain ⟨rfl, e⟩ := List.append_inj' htr rfl
    cases e
    exact ⟨_, h1, h2⟩
  | fault hf => exact hf.elim

theorem world.run {tr tr' : List (Op × Outcome TrustGraphError Answer)} {w w' : World} (h : World.Run False tr w) (h' : World.Run False tr' w')
    (hops : List.Forall₂ (fun p p' => ρ.op p.1 p'.1) tr tr') : List.Forall₂ (fun p p' => ρ.answer p.2 p'.2) tr tr' ∧ world ρ w w' := by
  induction h generalizing tr' w' with
  | start =>
    cases hops
    generalize htr : ([] : List (Op × Outcome TrustGraphError Answer)) = tr at h'
    cases h' with
    | start => exact ⟨.nil, .empty⟩
    | step => simp at htr
    | fault hf => exact hf.elim
  | @step tr w p o v h1 h2 ih =>
    have hr := List.rel_reverse hops
    rw [List.reverse_concat] at hr
    generalize htr : tr'.reverse = l at hr
    cases hr with
    | @cons _ x _ l hx hl =>
      have e : tr' = l.reverse ++ [x] := by
        rw [← List.reverse_reverse tr', htr, List.reverse_cons]
      subst e
      have hl' := List.rel_reverse hl
      rw [List.reverse_reverse] at hl'
      obtain ⟨v', g1, g2⟩ := run_inv h'
      obtain ⟨i1, i2⟩ := ih g1 hl'
      obtain ⟨j1, j2⟩ := i2.step hx h2 g2
      exact ⟨List.rel_append i1 (.cons j1 .nil), j2⟩
  | fault hf => exact hf.elim

end Spec.Renaming

variable [Env]

/-- **C129.**  Two graphs on healthy databases, and the same calls to both, except that in the second other keys stand for the keys of the first (different keys for different
keys), other dates, in the same order, for the dates, and other signatures, genuine where those of the first are.  Then the answers are the same, except that they have the
other keys, dates and signatures. -/
theorem C129_names_do_not_matter (ρ : Renaming) {tr tr' : List (Op × Outcome TrustGraphError Answer)} {db db' : Db} (h : Trace False tr db) (h' : Trace False tr' db')
    (hops : List.Forall₂ (fun p p' => ρ.op p.1 p'.1) tr tr') (hn : (tr.flatMap (fun p => p.1.offers)).length + 16 < 2 ^ 32)
    (hn' : (tr'.flatMap (fun p => p.1.offers)).length + 16 < 2 ^ 32) : List.Forall₂ (fun p p' => ρ.answer p.2 p'.2) tr tr' :=
  (Renaming.world.run (C99_refines h hn) (C99_refines h' hn') hops).1

/-- **C129** for any two storages that keep to the rules, be they of the same kind or not. -/
theorem C129_any_storage (ρ : Renaming) {S S' σ σ' : Type} [Storage S σ] [Storage S' σ'] {look : Look S} {look' : Look S'} (c : Contract (σ := σ) look False)
    (c' : Contract (σ := σ') look' False) {tr tr' : List (Op × Outcome TrustGraphError Answer)} {s : S} {s' : S'} (h : look.Trace (σ := σ) tr s)
    (h' : look'.Trace (σ := σ') tr' s')
    (hops : List.Forall₂ (fun p p' => ρ.op p.1 p'.1) tr tr') (hn : (tr.flatMap (fun p => p.1.offers)).length + 16 < 2 ^ 32)
    (hn' : (tr'.flatMap (fun p => p.1.offers)).length + 16 < 2 ^ 32) : List.Forall₂ (fun p p' => ρ.answer p.2 p'.2) tr tr' :=
  (Renaming.world.run (C102_any_storage c h hn) (C102_any_storage c' h' hn') hops).1

end TG
