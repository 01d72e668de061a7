import Verif.Model.Select
import Verif.Model.Compare
import Verif.Model.Choose
import Verif.Model.Calendar

/-!
# Which elements are true: `nonzero`, `argwhere`, `flatnonzero`, `count_nonzero`, `all`, `any`, `logical_not` for every dtype
-/

namespace Rumpy

open Spec

/-- `is_truthy` of a dtype: dates and durations are src/array/dtype/datetime64.rs:238-241, 412-415, strings
src/array/dtype/string.rs:192-196, 416-419, the others as in `isTruthy`. -/
def truthElem (d : DType) (x : Elem) : Bool :=
  match d, x with
  | .datetime _, .int n => n != 0 && n != NaT
  | .timedelta _, .int n => n != 0 && n != NaT
  | _, x => isTruthy x

/-- `get_element(..) != 0.0`, src/array/mod.rs:144-152 with src/ops/mod.rs:142-143 and src/ops/array_methods/logical.rs:79. -/
def floatTruth (x : Elem) : Bool := !fltEq ((readF64 x).getD (.num 0)) (.num 0)

/-- `count_nonzero`, src/ops/array_methods/logical.rs:8-23. -/
def countNonzeroFn (d : DType) (h : Held Elem) : Nat := countTruthy (truthElem d) h

/-- `flatnonzero`, src/ops/indexing.rs:459-492. -/
def flatnonzeroFn (d : DType) (h : Held Elem) : Arr Nat := flatnonzero (truthElem d) h.mem h.view

/-- `argwhere`, src/ops/indexing.rs:404-456. -/
def argwhereFn (d : DType) (h : Held Elem) : Arr Nat := argwhere (truthElem d) h.nd

/-- `nonzero`, src/ops/mod.rs:135-158: the only one that reads the elements as f64. -/
def nonzeroFn (h : Held Elem) : List (List Nat) := nonzero floatTruth h.nd

/-- `all`, src/ops/array_methods/logical.rs:26-40. -/
def allFn (d : DType) (h : Held Elem) : Bool := allElems (truthElem d) h

/-- `any`, src/ops/array_methods/logical.rs:93-107. -/
def anyFn (d : DType) (h : Held Elem) : Bool := anyElems (truthElem d) h

/-- `logical_not`, src/ops/comparison.rs:135-137. -/
def logicalNotFn (d : DType) (h : Held Elem) : Arr Bool := logicalNot (truthElem d) h

/-- The table of `dispatch_all_axis`, src/ops/dispatch.rs:1738-1753, which is also that of `dispatch_any_axis`, src/ops/dispatch.rs:1758-1773. -/
def typedTruth : DType → Bool
  | .i8 | .datetime _ | .timedelta _ | .str _ | .bytes _ => false
  | _ => true

/-- The test of one element in `all_axis` and `any_axis`: src/ops/dispatch.rs:1778, 1783, 1895-1897, and for the other dtypes
src/ops/array_methods/logical.rs:79, which reads an f64. -/
def axisTruth (d : DType) (x : Elem) : Bool := if typedTruth d then isTruthy x else floatTruth x

/-- `all_axis`, src/ops/array_methods/logical.rs:43-90. -/
def allAxisFn (d : DType) (h : Held Elem) (axis : Nat) : Arr Bool := allAxis (typedTruth d) (axisTruth d) h axis

/-- `any_axis`, src/ops/array_methods/logical.rs:110-157. -/
def anyAxisFn (d : DType) (h : Held Elem) (axis : Nat) : Arr Bool := anyAxis (typedTruth d) (axisTruth d) h axis

end Rumpy
