/-
Property C112: generating key pairs.
-/
import Mathlib.SetTheory.Cardinal.Finite
import Verif.Model.Generate
import Verif.Props.Keys

namespace TG

section
variable [Env]

/-- The bytes are the secret of a key pair of the format (every 32 bytes for Ed25519, a scalar in range for Secp256k1). -/
def Spec.SecretOf (f : KeyFormat) (b : Block) : Prop :=
  ∃ kp : KeyPair, kp.keyFormat = f ∧ kp.secret = .ok b.bytes

/-- RSA is the only format without a secret. -/
def KeyFormat.NotRsa (f : KeyFormat) : Prop := ∀ h, f ≠ .rsa h

/-- **C112** at full strength: for every format, as soon as the source has handed out a block that is a secret of the format, the call
returns a pair of the format with this secret; before it goes on waiting. -/
def C112_statement : Prop :=
  ∀ (f : KeyFormat) (source : List Block),
    match KeyPair.generate f source with
    | none => ∀ b ∈ source, ¬ Spec.SecretOf f b
    | some (.ok kp) => kp.keyFormat = f ∧ ∃ before b after, source = before ++ b :: after ∧
        (∀ b' ∈ before, ¬ Spec.SecretOf f b') ∧ kp.secret = .ok b.bytes
    | some _ => False

namespace KeyPair

theorem secretOf_ed (b : Block) : Spec.SecretOf .ed25519 b := ⟨.ed25519 b.bytes b.length_bytes, rfl, rfl⟩

theorem secretOf_secp (b : Block) : Spec.SecretOf .secp256k1 b ↔ Env.secpValidSk b.bytes = true := by
  constructor
  · rintro ⟨kp, hf, hs⟩
    cases kp with
    | ed25519 => cases hf
    | rsa => cases hf
    | secp256k1 sk len valid => cases hs; exact valid
  · intro h
    exact ⟨.secp256k1 b.bytes b.length_bytes h, rfl, rfl⟩

theorem ext_secret {f : KeyFormat} {kp kp' : KeyPair} (h : kp.keyFormat = f) (h' : kp'.keyFormat = f) {b : Bytes} (hs : kp.secret = .ok b)
    (hs' : kp'.secret = .ok b) : kp = kp' := by
  subst h
  cases kp <;> cases kp' <;> try cases h'
  · cases hs; cases hs'; rfl
  · cases hs
  · cases hs; cases hs'; rfl

end KeyPair

/-- **C112**, for Ed25519 and Secp256k1.  Missing: RSA, for which it is false (`C112_fails`). -/
theorem C112_generate_partial (f : KeyFormat) (hf : f.NotRsa) (source : List Block) :
    match KeyPair.generate f source with
    | none => ∀ b ∈ source, ¬ Spec.SecretOf f b
    | some (.ok kp) => kp.keyFormat = f ∧ ∃ before b after, source = before ++ b :: after ∧
        (∀ b' ∈ before, ¬ Spec.SecretOf f b') ∧ kp.secret = .ok b.bytes
    | some _ => False := by
  cases f with
  | rsa h => exact absurd rfl (hf h)
  | ed25519 =>
    rcases source with _ | ⟨b, rest⟩
    · exact fun _ h => by cases h
    · exact ⟨rfl, [], b, rest, rfl, (fun _ h => by cases h), rfl⟩
  | secp256k1 =>
    induction source with
    | nil => exact fun _ h => by cases h
    | cons b rest ih =>
      by_cases hv : Env.secpValidSk b.bytes = true
      · have e : KeyPair.generate .secp256k1 (b :: rest) = some (.ok (.secp256k1 b.bytes b.length_bytes hv)) := by
          unfold KeyPair.generate KeyPair.generateSecp256k1
          rw [dif_pos hv]; rfl
        rw [e]
        exact ⟨rfl, [], b, rest, rfl, (fun _ h => by cases h), rfl⟩
      · have hb : ¬ Spec.SecretOf .secp256k1 b := fun h => hv ((KeyPair.secretOf_secp b).mp h)
        have e : KeyPair.generate .secp256k1 (b :: rest) = KeyPair.generate .secp256k1 rest := by
          unfold KeyPair.generate
          conv_lhs => unfold KeyPair.generateSecp256k1
          rw [dif_neg hv]
        rw [e]
        split at ih
        · intro b' hb'
          rcases List.mem_cons.mp hb' with rfl | hb'
          · exact hb
          · exact ih b' hb'
        · obtain ⟨h1, before, c, after, rfl, h2, h3⟩ := ih
          refine ⟨h1, b :: before, c, after, rfl, fun b' hb' => ?_, h3⟩
          rcases List.mem_cons.mp hb' with rfl | hb'
          · exact hb
          · exact h2 b' hb'
        · exact ih

/-- The result with a source that has handed out these blocks: the secret of the pair, `none` while it waits. -/
def Spec.Generates (f : KeyFormat) {n : Nat} (source : Fin n → Block) (b : Block) : Prop :=
  ∃ kp, KeyPair.generate f (List.ofFn source) = some (.ok kp) ∧ kp.secret = .ok b.bytes

omit [Env] in
theorem Block.bytes_injective : Function.Injective Block.bytes := fun _ _ h => List.ofFn_injective h

/-- What comes out is the first secret. -/
theorem generates_iff {f : KeyFormat} (hf : f.NotRsa) {n : Nat} (source : Fin n → Block) (b : Block) :
    Spec.Generates f source b ↔ ∃ before after, List.ofFn source = before ++ b :: after ∧ (∀ b' ∈ before, ¬ Spec.SecretOf f b') ∧
      Spec.SecretOf f b := by
  have key := C112_generate_partial f hf (List.ofFn source)
  constructor
  · rintro ⟨kp, h1, h2⟩
    rw [h1] at key
    obtain ⟨h3, before, b', after, h4, h5, h6⟩ := key
    rw [h2] at h6
    obtain rfl := Block.bytes_injective (Outcome.ok.inj h6)
    exact ⟨before, after, h4, h5, kp, h3, h2⟩
  · rintro ⟨before, after, h4, h5, h6⟩
    rcases h : KeyPair.generate f (List.ofFn source) with _ | (kp | e | _ | _)
    · rw [h] at key
      exact absurd h6 (key b (by rw [h4]; simp))
    · rw [h] at key
      obtain ⟨h3, before', b', after', h4', h5', h6'⟩ := key
      refine ⟨kp, h, ?_⟩
      have hb' : Spec.SecretOf f b' := ⟨kp, h3, h6'⟩
      rw [h6']
      have : b' = b := by
        rw [h4] at h4'
        clear h4 h6'
        induction before generalizing before' with
        | nil =>
          rcases before' with _ | ⟨x, before'⟩
          · exact (List.cons.inj h4').1.symm
          · exact absurd h6 (h5' b (by rw [(List.cons.inj h4').1]; simp))
        | cons x before ih =>
          rcases before' with _ | ⟨y, before'⟩
          · exact absurd hb' (h5 b' (by rw [← (List.cons.inj h4').1]; simp))
          · exact ih (fun c hc => h5 c (by simp [hc])) before' (List.cons.inj h4').2 fun c hc => h5' c (by simp [hc])
      rw [this]
    · exact e.elim
    all_goals
      rw [h] at key
      exact key.elim

/-- **C112**: no key is preferred.  For any number of rounds, each secret of the format comes out for the same number of the equally
likely sequences of blocks, so it has the same probability. -/
theorem C112_uniform_partial (f : KeyFormat) (hf : f.NotRsa) (n : Nat) (b b' : Block) (hb : Spec.SecretOf f b) (hb' : Spec.SecretOf f b') :
    Nat.card {source : Fin n → Block // Spec.Generates f source b} = Nat.card {source : Fin n → Block // Spec.Generates f source b'} := by
  have hσ : ∀ x, Spec.SecretOf f (Equiv.swap b b' x) ↔ Spec.SecretOf f x := by
    intro x
    by_cases h1 : x = b
    · rw [h1, Equiv.swap_apply_left]; exact ⟨fun _ => hb, fun _ => hb'⟩
    · by_cases h2 : x = b'
      · rw [h2, Equiv.swap_apply_right]; exact ⟨fun _ => hb', fun _ => hb⟩
      · rw [Equiv.swap_apply_of_ne_of_ne h1 h2]
  refine Nat.card_congr ((Equiv.arrowCongr (Equiv.refl _) (Equiv.swap b b')).subtypeEquiv fun source => ?_)
  rw [generates_iff hf, generates_iff hf]
  have e : List.ofFn ((Equiv.arrowCongr (Equiv.refl (Fin n)) (Equiv.swap b b')) source) = (List.ofFn source).map (Equiv.swap b b') := by
    rw [List.map_ofFn]; rfl
  rw [e]
  constructor
  · rintro ⟨before, after, h1, h2, h3⟩
    refine ⟨before.map (Equiv.swap b b'), after.map (Equiv.swap b b'), by rw [h1]; simp, fun x hx => ?_, hb'⟩
    obtain ⟨y, hy, rfl⟩ := List.mem_map.mp hx
    rw [hσ]
    exact h2 y hy
  · rintro ⟨before, after, h1, h2, h3⟩
    refine ⟨before.map (Equiv.swap b b'), after.map (Equiv.swap b b'), ?_, fun x hx => ?_, hb⟩
    · have := congrArg (List.map (Equiv.swap b b')) h1
      simpa [Function.comp_def] using this
    · obtain ⟨y, hy, rfl⟩ := List.mem_map.mp hx
      rw [hσ]
      exact h2 y hy

/-- **C112**: how long it may take.  Of the sequences of `n` blocks those for which the call still waits are as many as the `n`-th power
of the number of blocks that are not secrets: for each round the chance of having to go on is the same. -/
theorem C112_waiting_partial (f : KeyFormat) (hf : f.NotRsa) (n : Nat) :
    Nat.card {source : Fin n → Block // KeyPair.generate f (List.ofFn source) = none}
      = Nat.card {b : Block // ¬ Spec.SecretOf f b} ^ n := by
  have h : ∀ source : Fin n → Block, KeyPair.generate f (List.ofFn source) = none ↔ ∀ i, ¬ Spec.SecretOf f (source i) := by
    intro source
    have key := C112_generate_partial f hf (List.ofFn source)
    constructor
    · intro h i
      rw [h] at key
      exact key _ (List.mem_ofFn.mpr ⟨i, rfl⟩)
    · intro h
      rcases h' : KeyPair.generate f (List.ofFn source) with _ | (kp | e | _ | _)
      · rfl
      · rw [h'] at key
        obtain ⟨h3, before, b, after, h4, h5, h6⟩ := key
        obtain ⟨i, rfl⟩ := List.mem_ofFn.mp (show b ∈ List.ofFn source by rw [h4]; simp)
        exact absurd ⟨kp, h3, h6⟩ (h i)
      · exact e.elim
      all_goals
        rw [h'] at key
        exact key.elim
  rw [Nat.card_congr ((Equiv.subtypeEquivRight h).trans (Equiv.subtypePiEquivPi (p := fun _ b => ¬ Spec.SecretOf f b))), Nat.card_fun, Nat.card_eq_fintype_card (α := Fin n),
    Fintype.card_fin]

/-- **C112**: every pair can come out, if the source hands out its secret. -/
theorem C112_every_pair_partial (kp : KeyPair) (h : kp.keyFormat.NotRsa) :
    ∃ b : Block, kp.secret = .ok b.bytes ∧ ∀ rest, KeyPair.generate kp.keyFormat (b :: rest) = some (.ok kp) := by
  have block : ∀ l : Bytes, l.length = 32 → ∃ b : Block, b.bytes = l := fun l hl =>
    ⟨fun i => l[i.val]'(by omega), by
      unfold Block.bytes
      refine List.ext_getElem (by rw [List.length_ofFn, hl]) fun i h1 h2 => ?_
      rw [List.getElem_ofFn]⟩
  cases kp with
  | ed25519 sk len =>
    obtain ⟨b, rfl⟩ := block sk len
    exact ⟨b, rfl, fun _ => rfl⟩
  | rsa k hn => exact absurd rfl (h hn)
  | secp256k1 sk len valid =>
    obtain ⟨b, rfl⟩ := block sk len
    refine ⟨b, rfl, fun rest => ?_⟩
    show KeyPair.generate .secp256k1 (b :: rest) = _
    unfold KeyPair.generate KeyPair.generateSecp256k1
    rw [dif_pos valid]; rfl

end

/-- **C112**: the generated pair signs, and its signatures are accepted for its public key. -/
theorem C112_usable_partial [LawfulEnv] (f : KeyFormat) (hf : f.NotRsa) (source : List Block) (kp : KeyPair)
    (h : KeyPair.generate f source = some (.ok kp)) (msg : Bytes) : ∃ s, kp.sign msg = .ok s ∧ kp.pub.verify msg s = .ok () := by
  have key := C112_generate_partial f hf source
  rw [h] at key
  obtain ⟨h1, -⟩ := key
  have : ∃ s, kp.sign msg = .ok s := by
    cases kp with
    | ed25519 sk len => exact ⟨_, rfl⟩
    | rsa k hn => exact absurd h1.symm (hf hn)
    | secp256k1 sk len valid => exact ⟨_, if_pos (Env.sha256_length msg)⟩
  obtain ⟨s, hs⟩ := this
  exact ⟨s, hs, C41_genuine_accepted _ _ _ (C42_sign_genuine _ _ _ hs)⟩

/-- **C112 fails** (finding F34) for RSA in native builds: the call panics. -/
theorem C112_fails : ∃ env : LawfulEnv, ¬ @C112_statement env.toEnv := by
  refine ⟨KeysDemo.native, fun h => ?_⟩
  exact h (@KeyFormat.rsa KeysDemo.native.toEnv rfl) []

/-- **C112** holds in full in WebAssembly builds, which have no RSA. -/
theorem C112_wasm [Env] (h : Env.wasm = true) : C112_statement := fun f source =>
  C112_generate_partial f (fun h' => by rw [h] at h'; cases h') source

namespace GenerateDemo
open TG.Toy

/-- Bytes that are all the same. -/
def block (b : UInt8) : Block := fun _ => b

/-- C112: pairs of both formats; without random bytes the call waits. -/
example : (KeyPair.generate .ed25519 [block 5, block 6]).isSome = true ∧ (KeyPair.generate .secp256k1 [block 5]).isSome = true ∧
    KeyPair.generate .secp256k1 [] = none := by decide +kernel

/-- C112: the hypotheses. -/
example : (KeyFormat.ed25519).NotRsa ∧ (KeyFormat.secp256k1).NotRsa ∧ Spec.SecretOf .secp256k1 (block 5) ∧ Spec.SecretOf .ed25519 (block 6) :=
  ⟨(fun _ h => by cases h), (fun _ h => by cases h), (KeyPair.secretOf_secp _).mpr (by decide +kernel), KeyPair.secretOf_ed _⟩

/-- An environment in which bytes that begin with 255 are not a scalar: the loop draws again. -/
@[reducible] def strict : Env := { env true false with
  secpValidSk := fun b => b.head? != some 255 }

example : (match @KeyPair.generate strict (@KeyFormat.secp256k1 strict) [block 255, block 255, block 7, block 8] with
    | some (.ok kp) => @KeyPair.secret strict kp = .ok (block 7).bytes
    | _ => False) ∧
    @KeyPair.generate strict (@KeyFormat.secp256k1 strict) [block 255, block 255] = none ∧
    ¬ @Spec.SecretOf strict (@KeyFormat.secp256k1 strict) (block 255) := by
  refine ⟨rfl, rfl, ?_⟩
  rw [@KeyPair.secretOf_secp strict]
  decide +kernel

end GenerateDemo

end TG
