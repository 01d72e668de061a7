import Mathlib.Analysis.SpecialFunctions.Log.Base
import Mathlib.Analysis.SpecialFunctions.Pow.Real
import Verif.Spec.Binary
/-!
# Specification: operations on floats
-/

namespace Spec

/-- `r` is the remainder of `x` by `y` with the sign of `y` (Python's `%`). -/
def IsFloorMod (x y r : ℚ) : Prop := (∃ n : Int, x = n * y + r) ∧ (0 ≤ r ∧ r < y ∨ y < r ∧ r ≤ 0)

/-- `r` is the remainder of `x` by `y` with the sign of `x` (C's `fmod`). -/
def IsFmod (x y r : ℚ) : Prop := (∃ n : Int, x = n * y + r) ∧ |r| < |y| ∧ 0 ≤ x * r

/-- `r` is the larger of two floats that are not NaN. -/
def IsLarger (x y r : Flt ℚ) : Prop := (r = x ∨ r = y) ∧ Cmp.le.HoldsFlt x r ∧ Cmp.le.HoldsFlt y r

/-- `r` is the smaller of two floats that are not NaN. -/
def IsSmaller (x y r : Flt ℚ) : Prop := (r = x ∨ r = y) ∧ Cmp.le.HoldsFlt r x ∧ Cmp.le.HoldsFlt r y

/-- The sign of a float; NaN stays. -/
def signOf : Flt ℚ → Flt ℚ
  | .nan => .nan
  | .negInf => .num (-1)
  | .posInf => .num 1
  | .num q => .num (if 0 < q then 1 else if q < 0 then -1 else 0)

/-- `n` is a whole number nearest to `q`, the even one of two (`numpy.rint`). -/
def IsRint (q : ℚ) (n : Int) : Prop := |q - n| ≤ 1 / 2 ∧ (|q - n| = 1 / 2 → Even n)

/-- `log(exp x + exp y)` with the infinities as limits and NaN kept. -/
noncomputable def logaddexpSpec : Flt ℝ → Flt ℝ → Flt ℝ
  | .nan, _ => .nan
  | _, .nan => .nan
  | .posInf, _ => .posInf
  | _, .posInf => .posInf
  | .negInf, y => y
  | x, .negInf => x
  | .num x, .num y => .num (Real.log (Real.exp x + Real.exp y))

/-- `log2(2^x + 2^y)` with the infinities as limits and NaN kept. -/
noncomputable def logaddexp2Spec : Flt ℝ → Flt ℝ → Flt ℝ
  | .nan, _ => .nan
  | _, .nan => .nan
  | .posInf, _ => .posInf
  | _, .posInf => .posInf
  | .negInf, y => y
  | x, .negInf => x
  | .num x, .num y => .num (Real.logb 2 ((2 : ℝ) ^ x + (2 : ℝ) ^ y))

/-- The pattern `c` is the float after `a` towards `b`: NaN for NaN, `b` when they are equal, otherwise a float beyond `a`
on the side of `b` with none in between. -/
structure IsNextafter (F : BinFormat) (a b c : Nat) : Prop where
  pattern : F.Pattern c
  nan : F.value a = .nan ∨ F.value b = .nan → F.value c = .nan
  equal : Cmp.eq.HoldsFlt (F.value a) (F.value b) → F.value c = F.value b
  up : Cmp.lt.HoldsFlt (F.value a) (F.value b) → Cmp.lt.HoldsFlt (F.value a) (F.value c) ∧
    ∀ d, F.Pattern d → ¬(Cmp.lt.HoldsFlt (F.value a) (F.value d) ∧ Cmp.lt.HoldsFlt (F.value d) (F.value c))
  down : Cmp.gt.HoldsFlt (F.value a) (F.value b) → Cmp.gt.HoldsFlt (F.value a) (F.value c) ∧
    ∀ d, F.Pattern d → ¬(Cmp.gt.HoldsFlt (F.value a) (F.value d) ∧ Cmp.gt.HoldsFlt (F.value d) (F.value c))

/-- `float16`. -/
def binary16 : BinFormat := ⟨5, 10⟩

end Spec
