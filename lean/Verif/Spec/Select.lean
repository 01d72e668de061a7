import Verif.Spec.Nd
/-!
# Specification: selection by masks and by index arrays
-/

namespace Spec

/-- Python's reading of an index into an axis: negative counts from the end, anything outside
the axis is an error. -/
def pyIndex (len : Nat) (i : Int) : Option Nat :=
  if 0 ≤ i ∧ i < len then some i.toNat
  else if i < 0 ∧ -(len : Int) ≤ i then some ((len : Int) + i).toNat
  else none

namespace Nd

/-- The indices at which a predicate holds, in row-major order. -/
def trueAt (a : Nd α) (p : α → Bool) : List (List Nat) := (indices a.shape).filter fun i => p (a.get i)

/-- `take(a, ks, axis)`: position `j` of the axis is position `ks[j]` of the input's axis. -/
def takeAxis (a : Nd α) (axis : Nat) (ks : List Nat) : Nd α :=
  { shape := a.shape.set axis ks.length
    get := fun idx => a.get (idx.modify axis fun j => ks.getD j 0) }

/-- `a[I]` for an index array `I`: the axes of `I`, then the remaining axes of `a`. -/
def gather (a : Nd α) (I : Nd Nat) : Nd α :=
  { shape := I.shape ++ a.shape.tail
    get := fun idx => a.get (I.get (idx.take I.shape.length) :: idx.drop I.shape.length) }

/-- `take_along_axis(a, I, axis)`. -/
def takeAlong (a : Nd α) (I : Nd Nat) (axis : Nat) : Nd α :=
  { shape := I.shape, get := fun idx => a.get (idx.set axis (I.get idx)) }

end Nd
end Spec
