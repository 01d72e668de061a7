import Mathlib.Algebra.Order.Floor.Ring
import Mathlib.Algebra.Order.Field.Basic
import Mathlib.Data.Complex.Basic
import Verif.Spec.Sort
/-!
# Specification: phase unwrapping, trimming of zeros, phase angles
-/

namespace Spec

/-- `y` is `x` unwrapped: it starts where `x` starts, differs from it by whole periods, follows the jumps of `x` that are at most
`discont`, and replaces every other jump by the equivalent one in `[-period/2, period/2)`. -/
def IsUnwrapped [Field K] [LinearOrder K] (period discont : K) (n : Nat) (x y : Nat → K) : Prop :=
  y 0 = x 0 ∧
  (∀ k, k < n → ∃ m : Int, y k = x k + m * period) ∧
  ∀ k, k + 1 < n →
    (|x (k + 1) - x k| ≤ discont → y (k + 1) - y k = x (k + 1) - x k) ∧
    (discont < |x (k + 1) - x k| → -(period / 2) ≤ y (k + 1) - y k ∧ y (k + 1) - y k < period / 2)

/-- NumPy's `unwrap`: a jump of size `discont` or more is replaced by the equivalent one of at most half a period; when there are
two, with the sign of the jump. -/
def NumpyUnwrapped [Field K] [LinearOrder K] (period discont : K) (n : Nat) (x y : Nat → K) : Prop :=
  y 0 = x 0 ∧
  (∀ k, k < n → ∃ m : Int, y k = x k + m * period) ∧
  ∀ k, k + 1 < n →
    (|x (k + 1) - x k| < discont → y (k + 1) - y k = x (k + 1) - x k) ∧
    (discont ≤ |x (k + 1) - x k| → |y (k + 1) - y k| ≤ period / 2 ∧
      (|y (k + 1) - y k| = period / 2 → (0 < y (k + 1) - y k ↔ 0 < x (k + 1) - x k)))

/-- The list without the zeros at its front and at its back, as asked. -/
def trimmed (zero : α → Bool) (front back : Bool) (l : List α) : List α :=
  let l := if front then l.dropWhile zero else l
  if back then (l.reverse.dropWhile zero).reverse else l

end Spec
