import Mathlib.Algebra.BigOperators.Group.Finset.Basic
import Mathlib.Algebra.Field.Basic
import Mathlib.Order.Defs.LinearOrder
import Verif.Spec.Nd
/-!
# Specification: numerical differentiation, integration and interpolation
-/

namespace Spec
namespace Nd

/-- The derivative along an axis with spacing `h`: central differences inside, one-sided differences at the ends. -/
def gradient [Field K] (h : K) (a : Nd K) (axis : Nat) : Nd K :=
  ⟨a.shape, fun idx =>
    let i := idx.getD axis 0
    let y := fun j => a.get (idx.set axis j)
    if i = 0 then (y 1 - y 0) / h
    else if i + 1 = a.shape.getD axis 0 then (y i - y (i - 1)) / h
    else (y (i + 1) - y (i - 1)) / (2 * h)⟩

/-- The derivative along an axis for samples at coordinates `x` (NumPy's second-order formula inside). -/
def gradientAt [Field K] (x : Nat → K) (a : Nd K) (axis : Nat) : Nd K :=
  ⟨a.shape, fun idx =>
    let i := idx.getD axis 0
    let y := fun j => a.get (idx.set axis j)
    if i = 0 then (y 1 - y 0) / (x 1 - x 0)
    else if i + 1 = a.shape.getD axis 0 then (y i - y (i - 1)) / (x i - x (i - 1))
    else
      let hs := x i - x (i - 1)
      let hd := x (i + 1) - x i
      (hs ^ 2 * y (i + 1) + (hd ^ 2 - hs ^ 2) * y i - hd ^ 2 * y (i - 1)) / (hs * hd * (hs + hd))⟩

/-- The integral along an axis by the trapezoid rule; `d j` is the width of the `j`-th interval. -/
def trapezoid [Field K] (d : Nat → K) (a : Nd K) (axis : Nat) : Nd K :=
  ⟨a.shape.eraseIdx axis, fun idx =>
    ∑ j ∈ Finset.range (a.shape.getD axis 0 - 1), d j * ((a.get (idx.insertIdx axis j) + a.get (idx.insertIdx axis (j + 1))) / 2)⟩

end Nd

/-- `y` is the value at `x` of the piecewise linear function through the points `(xp[i], fp[i])`, for an `x` inside the
range of the points. -/
def IsInterp [Field K] [LinearOrder K] (xp fp : List K) (x y : K) : Prop :=
  (∃ k, k < xp.length ∧ x = xp.getD k 0 ∧ y = fp.getD k 0) ∨
  ∃ k, k + 1 < xp.length ∧ xp.getD k 0 < x ∧ x < xp.getD (k + 1) 0 ∧
    y = fp.getD k 0 + (x - xp.getD k 0) / (xp.getD (k + 1) 0 - xp.getD k 0) * (fp.getD (k + 1) 0 - fp.getD k 0)

end Spec
