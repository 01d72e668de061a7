import Verif.Spec.View
import Mathlib.Algebra.Field.Defs
import Mathlib.Algebra.BigOperators.Group.List.Basic
/-!
# Specification: reductions over several axes, means and central moments
-/

namespace Spec

/-- The entries of a list at the positions that are not in `axes`. -/
def dropAt (axes : List Nat) (l : List β) : List β := (l.zipIdx.filter fun p => p.2 ∉ axes).map (·.1)

/-- The elements, in row-major order, whose index is `idx` once the coordinates at `axes` are left out. -/
def Nd.over (a : Nd α) (axes : List Nat) (idx : List Nat) : List α :=
  ((indices a.shape).filter fun i => dropAt axes i = idx).map a.get

/-- Reduce over several axes: each element of the result stands for all the elements that differ from
it only in the coordinates at `axes`. -/
def Nd.collapse (f : List α → β) (a : Nd α) (axes : List Nat) : Nd β :=
  { shape := dropAt axes a.shape, get := fun idx => f (a.over axes idx) }

/-- The arithmetic mean. -/
def meanOf [Field K] (l : List K) : K := l.sum / (l.length : K)

/-- The central moment of order `k`; order two is the variance. -/
def momentOf [Field K] (k : Nat) (l : List K) : K := meanOf (l.map fun x => (x - meanOf l) ^ k)

/-- A valid axis argument and the axis it stands for. -/
def IsAxis (ndim : Nat) (axis : Int) (k : Nat) : Prop :=
  k < ndim ∧ (axis = (k : Int) ∨ axis = (k : Int) - (ndim : Int))

end Spec
