import Verif.Spec.Sort
import Verif.Spec.View
/-!
# Specification: functions applied to lanes and to elements
-/

namespace Spec

namespace Nd

/-- `apply_along_axis(f, axis, a)`: every lane along the axis is replaced by the array `f` gives for
it, whose axes take the place of the axis.  `inner` is the shape of the results of `f`. -/
def alongAxis (f : List α → Nd β) (inner : List Nat) (a : Nd α) (axis : Nat) : Nd β :=
  { shape := a.shape.take axis ++ inner ++ a.shape.drop (axis + 1)
    get := fun idx => (f (a.lane axis (idx.take axis ++ idx.drop (axis + inner.length)))).get
      ((idx.drop axis).take inner.length) }

/-- Every lane along the axis is replaced by one number, and the axis stays with length 1. -/
def reduceKeep (f : List α → α) (a : Nd α) (axis : Nat) : Nd α :=
  { shape := a.shape.set axis 1, get := fun idx => f (a.lane axis (idx.eraseIdx axis)) }

/-- The same, and the axis is dropped. -/
def reduceDrop (f : List α → β) (a : Nd α) (axis : Nat) : Nd β :=
  { shape := a.shape.eraseIdx axis, get := fun idx => f (a.lane axis idx) }

end Nd

/-- An argument of a vectorized function: an array, or any other object, which is passed on as it is. -/
inductive VArg (V : Type u)
  | arr (a : Nd V)
  | obj (x : V)

/-- The value an argument contributes at an index of the common shape. -/
def VArg.at (shape idx : List Nat) : VArg V → V
  | .arr a => (a.broadcast shape).get idx
  | .obj x => x

/-- The shapes of the arrays among the arguments. -/
def arrShapes (args : List (VArg V)) : List (List Nat) :=
  args.filterMap fun
    | .arr a => some a.shape
    | .obj _ => none

/-- The function of the elements at each index. -/
def vectorized (f : List V → R) (args : List (VArg V)) (shape : List Nat) : Nd R :=
  { shape := shape, get := fun idx => f (args.map (VArg.at shape idx)) }

end Spec
