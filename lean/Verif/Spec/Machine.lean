/-
A reference machine for the library: its state is the maximum chain length of each root and the latest relation of each pair of keys, its steps are the
calls with their answers.  No database, no search, no weight factors.

Where the code departs from what one expects, the machine follows the code: revocations of the issuer of a last trust do not count (`Admissible`),
a second `set_root` for the same key does nothing, of two relations in the same second the first stays, and dates are compared as signed 64-bit numbers (`Live`).
-/
import Verif.Spec.Ops
import Verif.Spec.Weight

namespace TG.Spec
variable [Env]

/-- The state of the machine. -/
structure World where
  /-- The maximum chain length of a root. -/
  roots : PublicKey → Option Nat
  /-- `relation a b`: the trust or the revocation that `a` has issued for `b`. -/
  relation : PublicKey → PublicKey → Option TrustRelation

namespace World

/-- At the beginning. -/
def empty : World := ⟨fun _ => none, fun _ _ => none⟩

/-- The trusts, revocations and roots as a graph. -/
def graph (w : World) : Snapshot where
  trusted a t := w.relation a t.issuedFor = some (.auth ⟨t, a⟩)
  revoked a b := ∃ r, w.relation a b = some (.revocation r)
  root k := (w.roots k).isSome

open Classical in
/-- Expired trusts disappear. -/
noncomputable def collect (w : World) (now : Dur) : World :=
  { w with relation := fun a b =>
      match w.relation a b with
      | some (.auth x) => if Live x.trust now then some (.auth x) else none
      | r => r }

open Classical in
/-- A relation replaces an older one.  Only whole seconds are kept. -/
noncomputable def update (w : World) (r : TrustRelation) : World :=
  { w with relation := fun a b =>
      if a = r.issuedBy ∧ b = r.issuedFor ∧ ∀ q, w.relation a b = some q → q.issuedAt.total < r.issuedAt.total then some r.trunc
      else w.relation a b }

open Classical in
/-- A root is registered once and for all; chain lengths above 16 count as 16. -/
noncomputable def setRoot (w : World) (k : PublicKey) (n : Nat) : World :=
  { w with roots := fun a => if a = k ∧ w.roots a = none then some (min n 16) else w.roots a }

/-- The list holds the certificates of `k` that satisfy `p`, each once, shortest first. -/
def Certs (w : World) (k : PublicKey) (p : Certificate → Prop) (cs : List Certificate) : Prop :=
  cs.Nodup ∧ cs.Pairwise (fun c c' => c.chain.length ≤ c'.chain.length) ∧ ∀ c, c ∈ cs ↔ Admissible w.graph k c ∧ p c

/-- `x` is what a certificate of `k` that satisfies `p` is worth: with a root of maximum chain length `n`, `2^n` halved for each further trust, but at least 1. -/
def Worth (w : World) (k : PublicKey) (p : Certificate → Prop) (x : Nat) : Prop :=
  ∃ root rest n, Admissible w.graph k ⟨root :: rest⟩ ∧ p ⟨root :: rest⟩ ∧ w.roots root.issuedFor = some n ∧ x = 2 ^ (n - rest.length)

/-- `x` is the weight of `k`: the greatest of 0, `2^n` for a root of maximum chain length `n`, and the worth of its certificates. -/
def Weight (w : World) (k : PublicKey) (x : Nat) : Prop :=
  IsGreatest (fun y => y = 0 ∨ (∃ n, w.roots k = some n ∧ y = 2 ^ n) ∨ w.Worth k (fun _ => True) y) x

/-- `x` is the weight of `k` through `issuer`. -/
def WeightFrom (w : World) (k issuer : PublicKey) (x : Nat) : Prop :=
  IsGreatest (fun y => y = 0 ∨ w.Worth k (fun c => ∃ t ∈ c.chain, t.issuedFor = issuer) y) x

/-- The list holds the revocations of `k`, each once. -/
def Revocations (w : World) (k : PublicKey) (rs : List Revocation) : Prop :=
  rs.Nodup ∧ ∀ r, r ∈ rs ↔ w.relation r.revokedBy k = some (.revocation r)

open Classical in
/-- Adding a verified trust: it is kept if the issuer has weight (at least 2, unless it is self-signed).  `y` is the number returned. -/
def AddTrust (w : World) (a : PublicKey) (t : Trust) (now : Dur) (y : Nat) (w' : World) : Prop :=
  t.verify a now = .ok () ∧ ∃ x, (w.collect now).Weight a x ∧ y = (if a = t.issuedFor then x else x / 2) ∧
    w' = if y = 0 then w.collect now else (w.collect now).update (.auth ⟨t, a⟩)

/-- Adding trusts one after the other, `a` being the issuer of the first and the key of each trust the issuer of the next, up to the first that is
refused. -/
inductive AddChain (now : Dur) : World → PublicKey → List Trust → Outcome TrustGraphError Answer → World → Prop
  | done {w a} : AddChain now w a [] (.ok .unit) w
  | refused {w a t ts e} : t.verify a now = .err e → AddChain now w a (t :: ts) (.err (.trustVerificationError e)) w
  | next {w a t ts y w1 o w'} : w.AddTrust a t now y w1 → AddChain now w1 t.issuedFor ts o w' → AddChain now w a (t :: ts) o w'

/-- As before, but an SQL statement fails on the way. -/
inductive BreakChain (now : Dur) : World → PublicKey → List Trust → World → Prop
  | here {w a t ts w'} : w' = w ∨ w' = w.collect now → BreakChain now w a (t :: ts) w'
  | later {w a t ts y w1 w'} : w.AddTrust a t now y w1 → BreakChain now w1 t.issuedFor ts w' → BreakChain now w a (t :: ts) w'

/-- `w.Step op o w'`: the call `op` answers `o` and leads to `w'`. -/
inductive Step (w : World) : Op → Outcome TrustGraphError Answer → World → Prop
  | setRoot (k n) : Step w (.setRoot k n) (.ok .unit) (w.setRoot k n)
  | addTrust {t a now y w'} : w.AddTrust a t now y w' → Step w (.addTrust t a now) (.ok (.weight y)) w'
  | refuseTrust {t a now e} : t.verify a now = .err e → Step w (.addTrust t a now) (.err (.trustVerificationError e)) w
  | add {t ts now o w'} : AddChain now w t.issuedFor (t :: ts) o w' → Step w (.add ⟨t :: ts⟩ now) o w'
  | addEmpty {now} : Step w (.add ⟨[]⟩ now) (.err .emptyChain) w
  | revoke {r} : r.verify = .ok () → Step w (.revoke r) (.ok .unit) (w.update (.revocation r))
  | refuseRevocation {r e} : r.verify = .err e → Step w (.revoke r) (.err (.revokeCheckError e)) w
  | weight {k now x} : (w.collect now).Weight k x → Step w (.weight k now) (.ok (.weight x)) (w.collect now)
  | weightFrom {k a now x} : (w.collect now).WeightFrom k a x → Step w (.weightFrom k a now) (.ok (.weight x)) (w.collect now)
  | getAllCerts {k now cs} : (w.collect now).Certs k (fun _ => True) cs → Step w (.getAllCerts k now) (.ok (.certs cs)) (w.collect now)
  | getAllCertsFrom {k a now cs} : (w.collect now).Certs k (fun c => ∃ t ∈ c.chain, t.issuedFor = a) cs →
      Step w (.getAllCertsFrom k a now) (.ok (.certs cs)) (w.collect now)
  | getRevocations {k rs} : w.Revocations k rs → Step w (.getRevocations k) (.ok (.revocations rs)) w

/-- `w.Break op w'`: an SQL statement fails during the call `op`, which leaves `w'`. -/
inductive Break (w : World) : Op → World → Prop
  | nothing (op) : (∀ c now, op ≠ .add c now) → Break w op w
  | collected (op) {now} : (∀ c now, op ≠ .add c now) → op.time = some now → Break w op (w.collect now)
  | add {t ts now w'} : BreakChain now w t.issuedFor (t :: ts) w' → Break w (.add ⟨t :: ts⟩ now) w'

/-- The runs of the machine: calls with their answers.  Only if `faulty`, SQL statements may fail; this is reported. -/
inductive Run (faulty : Prop) : List (Op × Outcome TrustGraphError Answer) → World → Prop
  | start : Run faulty [] empty
  | step {tr w op o w'} : Run faulty tr w → w.Step op o w' → Run faulty (tr ++ [(op, o)]) w'
  | fault {tr w op w'} : faulty → Run faulty tr w → w.Break op w' → Run faulty (tr ++ [(op, .err .internalStorageError)]) w'

end World

end TG.Spec

namespace TG
variable [Env]

/-- The runs of the library over SQLite, starting with an empty database: calls with their answers.  Only if `faulty`, SQL statements may fail, at any moment. -/
inductive Trace (faulty : Prop) : List (Op × Outcome TrustGraphError Answer) → Db → Prop
  | start : Trace faulty [] ⟨[], [], []⟩
  | step {tr db} (op : Op) : Trace faulty tr db → Trace faulty (tr ++ [(op, (op.call db).1)]) (op.call db).2
  | weather {tr db} (faults : List Bool) : faulty → Trace faulty tr db → Trace faulty tr { db with faults }

end TG
