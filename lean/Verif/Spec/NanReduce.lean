import Verif.Spec.Moments
import Mathlib.Order.Defs.LinearOrder
/-!
# Specification: reductions that leave NaN out

A float is `none` for NaN.
-/

namespace Spec

/-- The elements that are not NaN. -/
def numbers (l : List (Option α)) : List α := l.filterMap id

/-- The mean of the numbers, NaN when there are none. -/
def nanMeanOf [Field K] (l : List (Option K)) : Option K := if numbers l = [] then none else some (meanOf (numbers l))

/-- The variance of the numbers, NaN when there are none. -/
def nanVarOf [Field K] (l : List (Option K)) : Option K := if numbers l = [] then none else some (momentOf 2 (numbers l))

/-- `y` is the largest of the numbers, NaN when there are none. -/
def IsNanMax [LE α] (l : List (Option α)) : Option α → Prop
  | none => ∀ x ∈ l, x = none
  | some m => some m ∈ l ∧ ∀ x, some x ∈ l → x ≤ m

/-- `y` is the smallest of the numbers, NaN when there are none. -/
def IsNanMin [LE α] (l : List (Option α)) : Option α → Prop
  | none => ∀ x ∈ l, x = none
  | some m => some m ∈ l ∧ ∀ x, some x ∈ l → m ≤ x

/-- `k` is the first position of the largest number. -/
def FirstNanMax [LE α] [LT α] (l : List (Option α)) (k : Nat) : Prop :=
  ∃ m, l[k]? = some (some m) ∧ (∀ x, some x ∈ l → x ≤ m) ∧ ∀ j < k, ∀ x, l[j]? = some (some x) → x < m

/-- `k` is the first position of the smallest number. -/
def FirstNanMin [LE α] [LT α] (l : List (Option α)) (k : Nat) : Prop :=
  ∃ m, l[k]? = some (some m) ∧ (∀ x, some x ∈ l → m ≤ x) ∧ ∀ j < k, ∀ x, l[j]? = some (some x) → m < x

end Spec
