import Mathlib.LinearAlgebra.Matrix.Notation
import Mathlib.Data.Matrix.Mul
import Mathlib.Algebra.Order.Field.Basic
/-!
# Norms of matrices, pseudo-inverse, least squares

Lengths are stated by their squares, so no square root is needed.
-/

namespace Spec
open Matrix

variable {K : Type} [Field K] [LinearOrder K] {m n : Nat}

/-- The squared length of a vector. -/
def lengthSq {n : Nat} (x : Fin n → K) : K := x ⬝ᵥ x

/-- `r` is the largest factor by which `A` stretches a vector. -/
structure IsLargestGain (A : Matrix (Fin m) (Fin n) K) (r : K) : Prop where
  nonneg : 0 ≤ r
  bound : ∀ x, lengthSq (A *ᵥ x) ≤ r ^ 2 * lengthSq x
  reached : ∃ x, lengthSq x = 1 ∧ lengthSq (A *ᵥ x) = r ^ 2

/-- `r` is the smallest factor by which `A` stretches a vector. -/
structure IsSmallestGain (A : Matrix (Fin m) (Fin n) K) (r : K) : Prop where
  nonneg : 0 ≤ r
  bound : ∀ x, r ^ 2 * lengthSq x ≤ lengthSq (A *ᵥ x)
  reached : ∃ x, lengthSq x = 1 ∧ lengthSq (A *ᵥ x) = r ^ 2

/-- The four conditions of Penrose. -/
structure IsPinv (A : Matrix (Fin m) (Fin n) K) (X : Matrix (Fin n) (Fin m) K) : Prop where
  inner : A * X * A = A
  outer : X * A * X = X
  left : (A * X)ᵀ = A * X
  right : (X * A)ᵀ = X * A

/-- `x` brings `A x` as close to `b` as possible, and is the shortest vector that does. -/
structure IsLeastSquares (A : Matrix (Fin m) (Fin n) K) (b : Fin m → K) (x : Fin n → K) : Prop where
  closest : ∀ y, lengthSq (A *ᵥ x - b) ≤ lengthSq (A *ᵥ y - b)
  shortest : ∀ y, lengthSq (A *ᵥ y - b) = lengthSq (A *ᵥ x - b) → lengthSq x ≤ lengthSq y

end Spec
