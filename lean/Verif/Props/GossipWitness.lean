/-
Refutations of C110 at full strength, and examples for its hypotheses, in the toy environment.
-/
import Verif.Props.Gossip
import Verif.Props.UpdatesWitness

namespace TG

section
variable [Env]

theorem Spec.Told.setRoot {msgs : List TrustRelation} {db : Db} (h : Spec.Told msgs db) (pk : PublicKey) (n : Nat) :
    Spec.Told msgs ((Op.setRoot pk n).run db) := by
  obtain ⟨ops, hist, hops⟩ := h
  refine ⟨_, hist.step (.setRoot pk n), fun op ho m hm => ?_⟩
  rcases List.mem_append.mp ho with ho | ho
  · exact hops op ho m hm
  · rw [List.mem_singleton.mp ho] at hm
    cases hm.1

theorem Spec.Told.tellAll {msgs : List TrustRelation} {db : Db} {now : Dur} (h : Spec.Told msgs db) (l : List TrustRelation)
    (hl : ∀ m ∈ l, m ∈ msgs) : Spec.Told msgs (tellAll now l db) := by
  induction l generalizing db with
  | nil => exact h
  | cons m l ih =>
    refine ih ?_ fun m' hm' => hl m' (by simp [hm'])
    obtain ⟨ops, hist, hops⟩ := h
    refine ⟨_, hist.step (m.tell now), fun op ho m' hm' => ?_⟩
    rcases List.mem_append.mp ho with ho | ho
    · exact hops op ho m' hm'
    · rw [List.mem_singleton.mp ho] at hm'
      cases m <;> rw [List.mem_singleton.mp hm'.1] <;> exact hl _ (by simp)

theorem Spec.Told.init (msgs : List TrustRelation) : Spec.Told msgs ⟨[], [], []⟩ := ⟨[], .init, fun _ h => by cases h⟩

end

open TG.Toy

set_option maxRecDepth 100000

namespace GossipDemo

/-- A trust and a revocation as messages. -/
def t (a b : Nat) (issued : Nat) : TrustRelation := .auth ⟨trust a b 1000 issued, pk a⟩
def r (a b : Nat) (issued : Nat) : TrustRelation := .revocation (revocation a b issued)

/-- A new node with root 1 of maximum chain length 10, and root 9 of maximum chain length 1. -/
def node : Db := (Op.setRoot (pk 9) 1).run ((Op.setRoot (pk 1) 10).run ⟨[], [], []⟩)

theorem told (msgs : List TrustRelation) : Spec.Told msgs node := ((Spec.Told.init msgs).setRoot _ _).setRoot _ _

/-- A chain 1, 2, 3, 4; and root 1 revokes key 3. -/
def late : List TrustRelation := [t 1 1 1, t 1 2 1, t 2 3 1, t 3 4 1, r 1 3 5]

/-- One node hears of the revocation last, the other hears of the trust of key 3 last. -/
def A : Db := tellAll (s 10) late node
def B : Db := tellAll (s 10) [t 1 1 1, t 1 2 1, t 2 3 1, r 1 3 5, t 3 4 1] node

theorem toldA : Spec.Told late A := (told _).tellAll _ fun _ h => h
theorem toldB : Spec.Told late B := (told _).tellAll _ fun m h => by
  simp only [late, List.mem_cons, List.not_mem_nil, or_false] at h ⊢
  tauto

theorem facts : A.faults = [] ∧ B.faults = [] ∧ A.roots = B.roots ∧
    (∀ m ∈ late, ((m.tell (s 10)).run A).relations = A.relations) ∧ (∀ m ∈ late, ((m.tell (s 10)).run B).relations = B.relations) ∧
    (TrustGraph.weight (pk 4) (s 10) A).1 = .ok 128 ∧ (TrustGraph.weight (pk 4) (s 10) B).1 = .ok 0 := by decide +kernel

end GossipDemo

open GossipDemo in
/-- **C110 fails** (finding F32, from F2): both nodes have been told the same, and telling them again changes nothing; key 4 has weight 128 on one of them and none
on the other. -/
theorem C110_fails : ¬ C110_statement := by
  intro h
  obtain ⟨f1, f2, f3, f4, f5, f6, f7⟩ := facts
  have := (h late (s 10) A B f1 f2 (Db.rootFactor_congr f3) toldA f4 toldB f5 (pk 4)).1
  rw [f6, f7] at this
  cases this

namespace GossipDemo

/-- Root 9 (maximum chain length 1) trusts key 2, which trusts key 3; root 1 trusts key 5, which trusts key 2.  Then key 5 revokes key 2. -/
def long : List TrustRelation := [t 9 9 1, t 9 2 1, t 1 1 1, t 1 5 1, t 5 2 1, t 2 3 1, r 5 2 5]

def A2 : Db := tellAll (s 10) long node
def B2 : Db := tellAll (s 10) [t 9 9 1, t 9 2 1, t 1 1 1, t 1 5 1, t 5 2 1, r 5 2 5, t 2 3 1] node

theorem told2 : Spec.Told long A2 ∧ Spec.Told long B2 := by
  refine ⟨(told _).tellAll _ fun _ h => h, (told _).tellAll _ fun m h => ?_⟩
  simp only [long, List.mem_cons, List.not_mem_nil, or_false] at h ⊢
  tauto

def cert2 : Certificate := ⟨[trust 9 9 1000 1, trust 9 2 1000 1, trust 2 3 1000 1]⟩

theorem facts2 : A2.faults = [] ∧ B2.faults = [] ∧ A2.roots = B2.roots ∧
    (∀ m ∈ long, ((m.tell (s 10)).run A2).relations = A2.relations) ∧ (∀ m ∈ long, ((m.tell (s 10)).run B2).relations = B2.relations) ∧
    (TrustGraph.getAllCerts (pk 3) (s 10) A2).1 = .ok [cert2] ∧ (TrustGraph.getAllCerts (pk 3) (s 10) B2).1 = .ok [] := by decide +kernel

/-- Root 1 trusts key 2 and revokes it in the same second. -/
def same : List TrustRelation := [t 1 1 1, t 1 2 5, r 1 2 5]

def A3 : Db := tellAll (s 10) same node
def B3 : Db := tellAll (s 10) [t 1 1 1, r 1 2 5, t 1 2 5] node

theorem told3 : Spec.Told same A3 ∧ Spec.Told same B3 := by
  refine ⟨(told _).tellAll _ fun _ h => h, (told _).tellAll _ fun m h => ?_⟩
  simp only [same, List.mem_cons, List.not_mem_nil, or_false] at h ⊢
  tauto

def cert3 : Certificate := ⟨[trust 1 1 1000 1, trust 1 2 1000 5]⟩

theorem facts3 : A3.faults = [] ∧ B3.faults = [] ∧ A3.roots = B3.roots ∧
    (∀ m ∈ same, ((m.tell (s 10)).run A3).relations = A3.relations) ∧ (∀ m ∈ same, ((m.tell (s 10)).run B3).relations = B3.relations) ∧
    (TrustGraph.getAllCerts (pk 2) (s 10) A3).1 = .ok [cert3] ∧ (TrustGraph.getAllCerts (pk 2) (s 10) B3).1 = .ok [] := by decide +kernel

theorem pair {α β : Type} {x : α × β} {a : α} (h : x.1 = a) : x = (a, x.2) := Prod.ext h rfl

/-- The issuers of the revocations in a database. -/
theorem unrevoked_of {db : Db} {now : Dur} {ts : List Trust} (keys : List PublicKey)
    (h1 : ∀ row ∈ db.relations, row.relationType = revocationType → row.issuedBy ∈ keys.map keyText)
    (h2 : ∀ x ∈ ts, x.issuedFor ∉ keys) : Spec.Unrevoked (db.snapshot now) ts := by
  rintro i j a b - ha - ⟨rv, hs, e, -⟩
  have h := h1 _ hs.2 rfl
  obtain ⟨k, hk, hk'⟩ := List.mem_map.mp h
  have e' : k = rv.revokedBy := keyText_inj_iff.mp hk'
  exact h2 a (List.mem_of_getElem? ha) (by rw [← e, ← e']; exact hk)

end GossipDemo

open GossipDemo in
/-- The bound on the length in `InOrder` is needed (F7): only one of the nodes has a certificate of key 3, on which nobody has revoked anybody. -/
theorem C110_length_fails : ∃ (msgs : List TrustRelation) (now : Dur) (A B s s' : Db) (k : PublicKey) (c : Certificate) (cs cs' : List Certificate),
    A.NoFaults ∧ B.NoFaults ∧ A.roots = B.roots ∧ Spec.Told msgs A ∧ Spec.Told msgs B ∧ Spec.Settled msgs now A ∧ Spec.Settled msgs now B ∧
    TrustGraph.getAllCerts k now A = (.ok cs, s) ∧ TrustGraph.getAllCerts k now B = (.ok cs', s') ∧ c ∈ cs ∧
    Spec.Unrevoked (A.snapshot now) c.chain ∧ c ∉ cs' := by
  obtain ⟨f1, f2, f3, f4, f5, f6, f7⟩ := facts2
  have h1 : ∀ row ∈ A2.relations, row.relationType = revocationType → row.issuedBy ∈ [pk 5].map keyText := by decide +kernel
  have h2 : ∀ x ∈ cert2.chain, x.issuedFor ∉ [pk 5] := by decide +kernel
  have h3 := unrevoked_of (now := s 10) [pk 5] h1 h2
  exact ⟨long, s 10, A2, B2, _, _, pk 3, cert2, [cert2], [], f1, f2, f3, told2.1, told2.2, f4, f5, pair f6, pair f7,
    List.mem_singleton.mpr rfl, h3, List.not_mem_nil⟩

open GossipDemo in
/-- Different times are needed (F21): what came first stays. -/
theorem C110_same_second_fails : ∃ (msgs : List TrustRelation) (now : Dur) (A B s s' : Db) (k : PublicKey) (c : Certificate) (cs cs' : List Certificate),
    A.NoFaults ∧ B.NoFaults ∧ A.roots = B.roots ∧ Spec.Told msgs A ∧ Spec.Told msgs B ∧ Spec.Settled msgs now A ∧ Spec.Settled msgs now B ∧
    TrustGraph.getAllCerts k now A = (.ok cs, s) ∧ TrustGraph.getAllCerts k now B = (.ok cs', s') ∧ c ∈ cs ∧ Spec.InOrder A now c ∧ c ∉ cs' := by
  obtain ⟨f1, f2, f3, f4, f5, f6, f7⟩ := facts3
  refine ⟨same, s 10, A3, B3, _, _, pk 2, cert3, [cert3], [], f1, f2, f3, told3.1, told3.2, f4, f5, Prod.ext f6 rfl, Prod.ext f7 rfl, by simp,
    ⟨unrevoked_of [] (by decide +kernel) (by simp), ?_⟩, by simp⟩
  intro x f hx hf
  cases hx
  have : A3.rootFactor (trust 1 1 1000 1).issuedFor = some 6 := by decide +kernel
  rw [this] at hf
  cases hf
  decide

namespace GossipDemo

/-- Root 1 trusts keys 2 and 5, and has withdrawn its trust in 5; key 2 trusts key 3; nobody trusts key 7. -/
def msgs : List TrustRelation := [t 1 1 1, t 1 2 1, t 2 3 1, t 1 5 1, r 1 5 3, t 7 3 1, t 3 4 1]

/-- One node is told everything in this order, the other, with repetitions, in another. -/
def C : Db := tellAll (s 10) msgs node
def D : Db := tellAll (s 10) [r 1 5 3, t 3 4 1, t 2 3 1, t 1 1 1, t 1 5 1, t 1 2 1, t 2 3 1] node

theorem told4 : Spec.Told msgs C ∧ Spec.Told msgs D := by
  refine ⟨(told _).tellAll _ fun _ h => h, (told _).tellAll _ fun m h => ?_⟩
  simp only [msgs, List.mem_cons, List.not_mem_nil, or_false] at h ⊢
  tauto

/-- C110: the second node is not settled yet (it has heard of the trust of key 3 too early), and settles; then both know the same in a different order. -/
example : (∀ m ∈ msgs, ((m.tell (s 10)).run C).relations = C.relations) ∧
    ((t 3 4 1).tell (s 10)).run D ≠ D ∧ (TrustGraph.weight (pk 4) (s 10) D).1 = .ok 0 ∧
    (∀ m ∈ msgs, ((m.tell (s 10)).run (tellRounds (s 10) msgs 1 D)).relations = (tellRounds (s 10) msgs 1 D).relations) ∧
    (tellRounds (s 10) msgs 1 D).relations ≠ C.relations ∧
    (TrustGraph.weight (pk 4) (s 10) C).1 = .ok 128 ∧ (TrustGraph.weight (pk 4) (s 10) (tellRounds (s 10) msgs 1 D)).1 = .ok 128 ∧
    (TrustGraph.weight (pk 5) (s 10) C).1 = .ok 0 ∧ C.roots = D.roots ∧ C.faults = [] ∧ D.faults = [] := by decide +kernel

/-- C110: the messages are live, of whole seconds, and of different times for the same pair. -/
example : (∀ m ∈ msgs, m.Whole) ∧ (∀ a, .auth a ∈ msgs → Spec.Live a.trust (s 10)) ∧ (s 10).secs.toNat < 2 ^ 63 ∧
    (∀ q ∈ msgs, ∀ r ∈ msgs, q.SamePair r → q.issuedAt = r.issuedAt → q = r) := by
  refine ⟨?_, ?_, by decide, ?_⟩
  · intro m hm
    simp only [msgs, List.mem_cons, List.not_mem_nil, or_false] at hm
    rcases hm with rfl | rfl | rfl | rfl | rfl | rfl | rfl <;> first | exact ⟨rfl, rfl⟩ | exact (show Dur.Whole (s 3) from rfl)
  · intro a ha
    simp only [msgs, t, r, List.mem_cons, List.not_mem_nil, or_false, TrustRelation.auth.injEq, reduceCtorEq, false_or] at ha
    rcases ha with rfl | rfl | rfl | rfl | rfl | rfl <;> (show asI64 _ < asI64 _; decide)
  · have h : ∀ q ∈ msgs, ∀ r ∈ msgs, q.issuedFor = r.issuedFor ∧ q.issuedBy = r.issuedBy → q.issuedAt = r.issuedAt → q = r := by decide +kernel
    exact h

/-- C110: the certificate of key 4 is in order on both nodes. -/
example : (TrustGraph.getAllCerts (pk 4) (s 10) C).1 = .ok [⟨[trust 1 1 1000 1, trust 1 2 1000 1, trust 2 3 1000 1, trust 3 4 1000 1]⟩] ∧
    Spec.InOrder C (s 10) ⟨[trust 1 1 1000 1, trust 1 2 1000 1, trust 2 3 1000 1, trust 3 4 1000 1]⟩ := by
  refine ⟨by decide +kernel, ?_, ?_⟩
  · rintro i j a b - - hb ⟨rv, hs, -, e⟩
    have h1 : ∀ row ∈ C.relations, row.relationType = revocationType → row.issuedFor = keyText (pk 5) := by decide +kernel
    have h2 : rv.pk = pk 5 := keyText_inj_iff.mp (h1 _ hs.2 rfl)
    have h3 : ∀ x ∈ [trust 1 1 1000 1, trust 1 2 1000 1, trust 2 3 1000 1, trust 3 4 1000 1], x.issuedFor ≠ pk 5 := by decide +kernel
    exact h3 b (List.mem_of_getElem? hb) (by rw [← e, h2])
  · intro x f hx hf
    cases hx
    have : C.rootFactor (trust 1 1 1000 1).issuedFor = some 6 := by decide +kernel
    rw [this] at hf
    cases hf
    decide

end GossipDemo

end TG
