import Verif.Spec.Duration
import Verif.Model.Duration
import Verif.Lemmas.Text
import Verif.Lemmas.Print
/-!
# C118: the text of a duration says what it is
-/

namespace Props
open Rumpy Spec

theorem ofDigitChars_showNat (n : Nat) : Nat.ofDigitChars 10 (showNat n) 0 = n := by
  rw [← showNatPad_zero]
  exact ofDigitChars_showNatPad 0 n

theorem writtenInt_showInt (z : Int) : writtenInt (showInt z) = some z := by
  have hd := showNat_digits z.natAbs
  have hn := showNat_ne_nil z.natAbs
  have ho := ofDigitChars_showNat z.natAbs
  unfold showInt
  generalize showNat z.natAbs = r at hd hn ho
  by_cases hz : z < 0
  · rw [if_pos hz]
    show (if r ≠ [] ∧ ∀ c ∈ r, c.isDigit = true then some (-(Nat.ofDigitChars 10 r 0 : Int)) else none) = _
    rw [if_pos ⟨hn, hd⟩, ho]
    congr 1
    omega
  · rw [if_neg hz]
    have hc : writtenInt r = if r ≠ [] ∧ ∀ c ∈ r, c.isDigit = true then some (Nat.ofDigitChars 10 r 0 : Int) else none := by
      unfold writtenInt
      split
      · exact absurd (hd '-' (by simp)) (by decide)
      · rfl
    rw [hc, if_pos ⟨hn, hd⟩, ho]
    congr 1
    omega

theorem showInt_no_space (z : Int) : ∀ c ∈ showInt z, c ≠ ' ' := by
  have hd : ∀ c ∈ showNat z.natAbs, c ≠ ' ' := fun c hc h => by
    have := showNat_digits z.natAbs c hc
    rw [h] at this
    exact absurd this (by decide)
  unfold showInt
  split
  · intro c hc
    rcases List.mem_cons.1 hc with rfl | hc
    · decide
    · exact hd c hc
  · exact hd

theorem durationOf_text {z : Int} {name : List Char} {u : TimeUnit} (hu : unitNamed name = some u) :
    durationOf (showInt z ++ ' ' :: name) = some (some (z, u)) := by
  have hs := showInt_no_space z
  have h1 : (showInt z ++ ' ' :: name).takeWhile (· ≠ ' ') = showInt z := by
    rw [List.takeWhile_append_of_pos (by simpa using hs)]
    simp
  have h2 : (showInt z ++ ' ' :: name).dropWhile (· ≠ ' ') = ' ' :: name := by
    rw [List.dropWhile_append_of_pos (by simpa using hs)]
    simp
  have h3 : showInt z ++ ' ' :: name ≠ "NaT".toList := by
    intro h
    have : ' ' ∈ "NaT".toList := h ▸ (by simp)
    exact absurd this (by decide)
  unfold durationOf
  rw [if_neg h3, h1, h2, writtenInt_showInt]
  show (match some z, unitNamed name with | some v, some u => some (some (v, u)) | _, _ => none) = _
  rw [hu]

/-- C118.  The text of a duration, read again, is the number and the unit of the duration, for every number and unit; the least number is
not a time and is printed as such. -/
theorem C118_reads (u : TimeUnit) (v : Int) :
    durationOf (formatDuration u v) = some (if v = -2 ^ 63 then none else some (v, u)) := by
  unfold formatDuration NaT
  by_cases hv : v = -2 ^ 63
  · rw [if_pos hv, if_pos hv]
    decide +kernel
  · rw [if_neg hv, if_neg hv]
    unfold formatTimedelta
    split
    · exact durationOf_text (by cases u <;> decide +kernel)
    · exact durationOf_text (by cases u <;> decide +kernel)

/-- C118.  Durations with the same text are the same number of the same unit, or both are not a time. -/
theorem C118_injective (u u' : TimeUnit) (v v' : Int) (h : formatDuration u v = formatDuration u' v') :
    (v = v' ∧ u = u') ∨ (v = -2 ^ 63 ∧ v' = -2 ^ 63) := by
  have e := C118_reads u v
  rw [h, C118_reads u' v'] at e
  have e := Option.some.inj e
  by_cases h1 : v = -2 ^ 63 <;> by_cases h2 : v' = -2 ^ 63
  · exact Or.inr ⟨h1, h2⟩
  · rw [if_pos h1, if_neg h2] at e; cases e
  · rw [if_neg h1, if_pos h2] at e; cases e
  · rw [if_neg h1, if_neg h2] at e
    have e := Option.some.inj e
    exact Or.inl ⟨(congrArg Prod.fst e).symm, (congrArg Prod.snd e).symm⟩

/-- C118 (partial): the text is NumPy's text of a duration, the number and the plural of the unit, if the number is not 1 or -1.  Missing:
for these the code takes the singular (`C118_singular_counterexample`). -/
theorem C118_numpy_partial (u : TimeUnit) (v : Int) (h1 : v ≠ 1) (h2 : v ≠ -1) (h3 : v ≠ -2 ^ 63) :
    ∃ digits, formatDuration u v = digits ++ ' ' :: u.plural ∧ writtenInt digits = some v := by
  refine ⟨showInt v, ?_, writtenInt_showInt v⟩
  unfold formatDuration NaT formatTimedelta
  rw [if_neg h3, if_neg (by rintro (h | h) <;> contradiction)]
  cases u <;> rfl

example : formatDuration .D (-12) = "-12 days".toList ∧ durationOf "-12 days".toList = some (some (-12, .D)) ∧
    formatDuration .ns (-2 ^ 63) = "NaT".toList := by decide +kernel

/-- C118 fails for the numbers 1 and -1: NumPy prints `1 days`. -/
theorem C118_singular_counterexample : formatDuration .D 1 = "1 day".toList ∧ formatDuration .D 1 ≠ "1 days".toList ∧
    formatDuration .h (-1) = "-1 hour".toList := by decide +kernel

end Props
