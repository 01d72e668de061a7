import Verif.Spec.Moments
import Mathlib.Algebra.BigOperators.Group.Finset.Basic
import Mathlib.Analysis.Real.Sqrt
/-!
# Spec: covariance, correlation and weighted means
-/

namespace Spec
open Finset

/-- The mean of `n` observations. -/
def meanN [Field K] (n : Nat) (x : Nat → K) : K := (∑ k ∈ range n, x k) / (n : K)

/-- The covariance of two variables observed `n` times. -/
def covN [Field K] (n ddof : Nat) (x y : Nat → K) : K :=
  (∑ k ∈ range n, (x k - meanN n x) * (y k - meanN n y)) / ((n : K) - (ddof : K))

/-- The correlation coefficient of two variables that are not constant. -/
noncomputable def corrN (n : Nat) (x y : Nat → ℝ) : ℝ :=
  covN n 1 x y / (Real.sqrt (covN n 1 x x) * Real.sqrt (covN n 1 y y))

/-- The mean with weights; there is none when the weights sum to zero. -/
def weightedMean [Field K] [DecidableEq K] (xs ws : List K) : Option K :=
  if ws.sum = 0 then none else some ((List.zipWith (· * ·) xs ws).sum / ws.sum)

end Spec
