import Mathlib.Analysis.SpecialFunctions.Trigonometric.Basic
import Mathlib.Analysis.SpecialFunctions.Sqrt
import Mathlib.Topology.Algebra.InfiniteSum.Real
/-!
# Specification: window functions, `sinc` and the Bessel function
-/

namespace Spec
open Real

/-- The modified Bessel function of the first kind of order 0, by its power series. -/
noncomputable def besselI0 (x : ℝ) : ℝ := ∑' k : ℕ, ((x / 2) ^ k / k.factorial) ^ 2

/-- The values of the windows of `M` points at the point `n`, for `M > 1`, as NumPy documents them. -/
noncomputable def bartlettAt (M n : ℝ) : ℝ := 2 / (M - 1) * ((M - 1) / 2 - |n - (M - 1) / 2|)

noncomputable def hanningAt (M n : ℝ) : ℝ := 0.5 - 0.5 * cos (2 * π * n / (M - 1))

noncomputable def hammingAt (M n : ℝ) : ℝ := 0.54 - 0.46 * cos (2 * π * n / (M - 1))

noncomputable def blackmanAt (M n : ℝ) : ℝ := 0.42 - 0.5 * cos (2 * π * n / (M - 1)) + 0.08 * cos (4 * π * n / (M - 1))

noncomputable def kaiserAt (beta M n : ℝ) : ℝ :=
  besselI0 (beta * sqrt (1 - 4 * (n - (M - 1) / 2) ^ 2 / (M - 1) ^ 2)) / besselI0 beta

/-- `w` is the window of `m` points with the values `f`; of one point it is 1, and of fewer empty. -/
def IsWindow (f : ℝ → ℝ → ℝ) (m : Int) (w : List ℝ) : Prop :=
  w.length = m.toNat ∧ (m = 1 → w = [1]) ∧ (1 < m → ∀ n : Nat, n < m → w[n]? = some (f m n))

/-- A window rises and falls alike and has its values between 0 and 1. -/
def IsTaper (w : List ℝ) : Prop := w.reverse = w ∧ ∀ x ∈ w, 0 ≤ x ∧ x ≤ 1

end Spec
