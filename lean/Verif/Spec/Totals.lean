import Verif.Spec.Arith
import Verif.Spec.FloatOps
/-!
# Specification: sums, products, extremes and means of arrays of any number dtype
-/

namespace Spec

/-- The four reductions. -/
inductive Total
  | sum | prod | max | min
deriving DecidableEq, Repr

/-- The exact total of whole numbers. -/
def Total.whole : Total → Option (List Int → Int)
  | .sum => some List.sum
  | .prod => some List.prod
  | _ => none

/-- `m` is the greatest (`max`) or the least (`min`) of the values, none of which is NaN. -/
def IsExtreme (op : Total) (l : List (Flt ℚ)) (m : Flt ℚ) : Prop :=
  m ∈ l ∧ ∀ x ∈ l, (op = .max → Cmp.le.HoldsFlt x m) ∧ (op = .min → Cmp.le.HoldsFlt m x)

/-- The exact sum of numbers. -/
def exactSum (l : List ℚ) : ℚ := l.sum

/-- The sum of the absolute values. -/
def absSum (l : List ℚ) : ℚ := (l.map fun x => |x|).sum

/-- The largest finite number of a float format. -/
def topOf (p : Nat) (hi : Int) : ℚ := (2 ^ p - 1) * 2 ^ hi

/-- The elements of the lane along an axis; `i` is the index without that axis. -/
def laneOf {α : Type} (nd : Nd α) (axis : Nat) (i : List Nat) : List α :=
  (List.range (nd.shape.getD axis 0)).map fun j => nd.get (i.insertIdx axis j)

end Spec
