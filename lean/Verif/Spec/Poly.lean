import Mathlib.Algebra.Polynomial.Derivative
import Mathlib.Algebra.Order.Antidiag.Nat
import Verif.Spec.Nd
/-!
# Specification: convolution and polynomials

Polynomials are Mathlib's `Polynomial`.
-/

namespace Spec
open Polynomial

/-- The polynomial with coefficients `l`, constant term first: `l[0] + l[1] x + l[2] x² + ...`. -/
noncomputable def polyLow [Semiring K] : List K → K[X]
  | [] => 0
  | c :: l => C c + X * polyLow l

/-- The polynomial with coefficients `l`, highest degree first (NumPy's convention). -/
noncomputable def polyHigh [Semiring K] (l : List K) : K[X] := polyLow l.reverse

/-- Entry `k` of the discrete convolution: the sum of `a[i] * v[j]` over all `i + j = k`; entries
outside a list count as zero. -/
def convAt [Semiring K] (a v : List K) (k : Nat) : K :=
  ∑ p ∈ Finset.antidiagonal k, a.getD p.1 0 * v.getD p.2 0

/-- Entry `k` of the cross-correlation: the sum of `a[i + k] * v[i]`, for any (also negative) lag `k`. -/
def corrAt [Semiring K] (a v : List K) (k : Int) : K :=
  ∑ i ∈ Finset.range v.length, (if 0 ≤ (i : Int) + k then a.getD ((i : Int) + k).toNat 0 else 0) * v.getD i 0

/-- NumPy's window of the full convolution of lengths `n` and `m`: (length, first entry).  `"same"` is the
centred window of length `max n m`, `"valid"` the entries where the two sequences overlap completely. -/
def convWindowSpec (mode : String) (n m : Nat) : Nat × Nat :=
  if mode = "full" then (n + m - 1, 0)
  else if mode = "same" then (max n m, (min n m - 1) / 2)
  else (max n m - min n m + 1, min n m - 1)

end Spec
