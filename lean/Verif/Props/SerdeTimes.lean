/-
Property C104, times: which records are read as times.
-/
import Verif.Props.Serde

namespace TG
open Serde

/-- **C104** (times).  A record is read as a time if and only if it has the fields `secs` and `nanos`, each once and in any order, and no other field, with numbers that fit
into 64 and 32 bits; the time is their sum, which must fit as well. -/
theorem C104_times {fields : List (Str × Value)} {d : Dur} :
    readDuration (.map fields) = .ok d ↔
      ∃ s n, fields.Perm [("secs".toList, .num s), ("nanos".toList, .num n)] ∧ s < 2 ^ 64 ∧ n < 2 ^ 32 ∧ d.total = s * 1000000000 + n := by
  have hd : ∀ s n, (if s < 2 ^ 64 ∧ n < 2 ^ 32 ∧ s + n / 1000000000 < 2 ^ 64 then
      (.ok ⟨UInt64.ofNat (s + n / 1000000000), ⟨n % 1000000000, Nat.mod_lt _ (by decide)⟩⟩ : Outcome Serde.Error Dur) else .err .invalid) = .ok d ↔
      s < 2 ^ 64 ∧ n < 2 ^ 32 ∧ d.total = s * 1000000000 + n := by
    intro s n
    obtain ⟨x, y, hy⟩ := d
    have hx := x.toNat_lt
    constructor
    · intro h
      split at h
      · next hc =>
        cases h
        refine ⟨hc.1, hc.2.1, ?_⟩
        show (UInt64.ofNat (s + n / 1000000000)).toNat * 1000000000 + n % 1000000000 = _
        rw [UInt64.toNat_ofNat_of_lt' hc.2.2]
        omega
      · cases h
    · rintro ⟨h1, h2, h3⟩
      replace h3 : x.toNat * 1000000000 + y = s * 1000000000 + n := h3
      have hX : x.toNat = s + n / 1000000000 := by omega
      have hY : y = n % 1000000000 := by omega
      subst hY
      rw [if_pos ⟨h1, h2, by omega⟩, ← hX, UInt64.ofNat_toNat]
  constructor
  · intro h
    unfold readDuration onlyFields at h
    by_cases hall : fields.all (fun f => f.1 ∈ ["secs".toList, "nanos".toList])
    · simp only [hall, if_true] at h
      replace h : (fieldValues fields ["secs".toList, "nanos".toList] >>= fun l => match l with
        | [.num s, .num n] =>
          if s < 2 ^ 64 ∧ n < 2 ^ 32 ∧ s + n / 1000000000 < 2 ^ 64 then
            .ok ⟨UInt64.ofNat (s + n / 1000000000), ⟨n % 1000000000, Nat.mod_lt _ (by decide)⟩⟩
          else .err .invalid
        | _ => .err .invalid) = .ok d := h
      unfold fieldValues fieldValues fieldValues field at h
      rcases ha : fields.filter (fun f => f.1 = "secs".toList) with _ | ⟨⟨an, av⟩, _ | ⟨_, _⟩⟩
      · rw [ha] at h; cases h
      · rcases hb : fields.filter (fun f => f.1 = "nanos".toList) with _ | ⟨⟨bn, bv⟩, _ | ⟨_, _⟩⟩
        · rw [ha, hb] at h; cases h
        · rw [ha, hb] at h
          have h1 : an = "secs".toList := by
            have := (List.mem_filter.mp (ha ▸ List.mem_singleton.mpr rfl : (an, av) ∈ fields.filter (fun f => f.1 = "secs".toList))).2
            simpa using this
          have h2 : bn = "nanos".toList := by
            have := (List.mem_filter.mp (hb ▸ List.mem_singleton.mpr rfl : (bn, bv) ∈ fields.filter (fun f => f.1 = "nanos".toList))).2
            simpa using this
          have hp : fields.Perm [(an, av), (bn, bv)] := by
            have hc := (List.filter_append_perm (fun f : Str × Value => decide (f.1 = "secs".toList)) fields).symm
            rw [ha] at hc
            have he : fields.filter (fun f => !decide (f.1 = "secs".toList)) = fields.filter (fun f => f.1 = "nanos".toList) := by
              refine List.filter_congr fun f hf => ?_
              have := List.all_eq_true.mp hall f hf
              simp only [List.mem_cons, List.not_mem_nil, or_false, decide_eq_true_eq] at this
              rcases this with e | e <;> rw [e] <;> simp
            rw [he, hb] at hc
            exact hc
          subst h1 h2
          rcases av with _ | _ <;> rcases bv with _ | _ <;> first | exact absurd h (by intro h; cases h) | exact ⟨_, _, hp, (hd _ _).mp h⟩
        · rw [ha, hb] at h; cases h
      · rw [ha] at h; cases h
    · simp only [hall] at h
      cases h
  · rintro ⟨s, n, hp, h⟩
    have hall : fields.all (fun f => f.1 ∈ ["secs".toList, "nanos".toList]) := by
      refine List.all_eq_true.mpr fun f hf => ?_
      have := hp.mem_iff.mp hf
      simp only [List.mem_cons, List.not_mem_nil, or_false] at this
      rcases this with rfl | rfl <;> simp
    unfold readDuration onlyFields
    simp only [hall, if_true]
    refine (readStruct_perm hp.symm ?_).1
    have e : readStruct ["secs".toList, "nanos".toList] (.map [("secs".toList, .num s), ("nanos".toList, .num n)]) = .ok [.num s, .num n] := rfl
    rw [e]
    exact (hd s n).mpr h

/-- A time with more than a second of nanoseconds is read; one with a further field is not. -/
example : readDuration (.map [("nanos".toList, .num 1500000000), ("secs".toList, .num 7)]) = .ok ⟨8, 500000000⟩ ∧
    ∀ d, readDuration (.map [("nanos".toList, .num 0), ("secs".toList, .num 7), ("hours".toList, .num 0)]) ≠ .ok d := by
  refine ⟨C104_times.mpr ⟨7, 1500000000, List.Perm.swap _ _ _, by decide, by decide, by decide⟩, fun d h => ?_⟩
  obtain ⟨s, n, hp, -⟩ := C104_times.mp h
  cases hp.length_eq

end TG
