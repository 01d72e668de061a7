import Verif.Spec.Nd
import Mathlib.Order.Defs.LinearOrder
/-!
# Specification: insertion points, index clipping and wrapping
-/

namespace Spec

/-- `k` is the position at which `x` can be inserted before all equal elements. -/
def InsertLeft [LinearOrder α] (a : List α) (x : α) (k : Nat) : Prop :=
  k ≤ a.length ∧ (∀ y ∈ a.take k, y < x) ∧ ∀ y ∈ a.drop k, x ≤ y

/-- `k` is the position at which `x` can be inserted after all equal elements. -/
def InsertRight [LinearOrder α] (a : List α) (x : α) (k : Nat) : Prop :=
  k ≤ a.length ∧ (∀ y ∈ a.take k, y ≤ x) ∧ ∀ y ∈ a.drop k, x < y

/-- The index of an axis of length `n` nearest to `i`. -/
def clipTo (i : Int) (n : Nat) : Nat := if i < 0 then 0 else if (n : Int) ≤ i then n - 1 else i.toNat

/-- The index of an axis of length `n` congruent to `i` modulo `n`. -/
def wrapTo (i : Int) (n : Nat) : Nat := (i % n).toNat

end Spec
