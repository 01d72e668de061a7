import Verif.Spec.Nd
/-!
# Specification: what the view operations mean on n-d arrays

NumPy's view operations, on `Spec.Nd`: every operation is a new shape and a map
from the indices of the result to the indices of the source.
-/

namespace Spec

/-! ### Python slices -/

/-- Python's rule for the start of `s[i:j:k]` on a sequence of length `len` (language
reference, "Common sequence operations", notes 3 and 5). -/
def sliceStart (len : Nat) (i : Option Int) (step : Int) : Int :=
  let lo : Int := if step > 0 then 0 else -1
  let hi : Int := if step > 0 then len else (len : Int) - 1
  match i with
  | none => if step > 0 then lo else hi
  | some i => max lo (min hi (if i < 0 then i + len else i))

/-- Python's rule for the stop of `s[i:j:k]`. -/
def sliceStop (len : Nat) (j : Option Int) (step : Int) : Int :=
  let lo : Int := if step > 0 then 0 else -1
  let hi : Int := if step > 0 then len else (len : Int) - 1
  match j with
  | none => if step > 0 then hi else lo
  | some j => max lo (min hi (if j < 0 then j + len else j))

/-- The slice runs through `start, start + step, ...` and `n` is the number of positions
before `stop`. -/
def IsSliceLen (start stop step : Int) (n : Nat) : Prop :=
  ∀ k : Nat, k < n ↔ if step > 0 then start + k * step < stop else start + k * step > stop

/-! ### Operations on n-d arrays -/

namespace Nd

/-- Take positions `start, start + step, ...` (`n` of them) along one axis. -/
def slice (a : Nd α) (axis : Nat) (start step : Int) (n : Nat) : Nd α :=
  { shape := a.shape.set axis n
    get := fun idx => a.get (idx.modify axis fun k => (start + k * step).toNat) }

/-- Reverse the order of the axes. -/
def transpose (a : Nd α) : Nd α :=
  { shape := a.shape.reverse, get := fun idx => a.get idx.reverse }

/-- Permute the axes: axis `i` of the result is axis `axes[i]` of the source. -/
def transposeAxes (a : Nd α) (axes : List Nat) : Nd α :=
  { shape := axes.map fun k => a.shape.getD k 0
    get := fun idx => a.get ((List.range a.shape.length).map fun k => idx.getD (axes.idxOf k) 0) }

/-- Reverse the elements along one axis. -/
def flip (a : Nd α) (axis : Nat) : Nd α :=
  { shape := a.shape
    get := fun idx => a.get (idx.modify axis fun k => a.shape.getD axis 0 - 1 - k) }

/-- Repeat along new or length-1 axes. -/
def broadcast (a : Nd α) (newShape : List Nat) : Nd α :=
  { shape := newShape
    get := fun idx => a.get (List.zipWith (fun d i => if d = 1 then 0 else i) a.shape
      (idx.drop (newShape.length - a.shape.length))) }

/-- Insert a length-1 axis. -/
def expandDims (a : Nd α) (axis : Nat) : Nd α :=
  { shape := a.shape.insertIdx axis 1, get := fun idx => a.get (idx.eraseIdx axis) }

/-- Remove one axis, taking position 0 of it. -/
def dropAxis (a : Nd α) (axis : Nat) : Nd α :=
  { shape := a.shape.eraseIdx axis, get := fun idx => a.get (idx.insertIdx axis 0) }

end Nd

/-- Put back the coordinate 0 at every length-1 axis. -/
def unsqueeze : List Nat → List Nat → List Nat
  | [], _ => []
  | n :: s, idx => if n = 1 then 0 :: unsqueeze s idx
    else match idx with
      | [] => []
      | i :: idx => i :: unsqueeze s idx

namespace Nd

/-- Remove all length-1 axes. -/
def squeeze (a : Nd α) : Nd α :=
  { shape := a.shape.filter (· ≠ 1), get := fun idx => a.get (unsqueeze a.shape idx) }

/-- Main diagonal of the first two axes of a matrix. -/
def diagonal (a : Nd α) : Nd α :=
  { shape := [min (a.shape.getD 0 0) (a.shape.getD 1 0)]
    get := fun idx => a.get [idx.getD 0 0, idx.getD 0 0] }

end Nd

/-! ### Broadcasting of shapes -/

/-- Length of the axis `k` places from the right, with missing axes counted as 1. -/
def dimR (s : List Nat) (k : Nat) : Nat := if k < s.length then s.getD (s.length - 1 - k) 1 else 1

/-- NumPy's rule for one axis: equal, or one of the two is 1. -/
def DimBroadcast (x y z : Nat) : Prop := (x = y ∧ z = x) ∨ (x = 1 ∧ z = y) ∨ (y = 1 ∧ z = x)

/-- `r` is the broadcast of the shapes `a` and `b`, axis by axis from the right. -/
def IsBroadcast (a b r : List Nat) : Prop :=
  r.length = max a.length b.length ∧ ∀ k, k < r.length → DimBroadcast (dimR a k) (dimR b k) (dimR r k)

/-- An array of shape `s` can be broadcast to shape `t`. -/
def BroadcastsTo (s t : List Nat) : Prop :=
  s.length ≤ t.length ∧ ∀ k, k < s.length → dimR s k = 1 ∨ dimR s k = dimR t k

/-! ### NumPy basic indexing -/

/-- One item of a basic index after the ellipsis has been expanded. -/
inductive Ix where
  | newAxis
  | int (i : Int)
  | slice (start stop : Option Int) (step : Int)

/-- NumPy basic indexing (integers, slices and `None`; missing items take whole axes): the
shape of the result, and the source index for each result index.  `none` for an index error
or a zero step. -/
def basicIndex : List Ix → List Nat → Option (List Nat × (List Nat → List Nat))
  | [], s => some (s, id)
  | .newAxis :: r, s => do
    let (s', f) ← basicIndex r s
    some (1 :: s', fun idx => f idx.tail)
  | .int _ :: _, [] => none
  | .int i :: r, n :: s =>
    if -(n : Int) ≤ i ∧ i < n then do
      let (s', f) ← basicIndex r s
      some (s', fun idx => (if i < 0 then i + n else i).toNat :: f idx)
    else none
  | .slice _ _ _ :: _, [] => none
  | .slice a b c :: r, n :: s =>
    if c = 0 then none
    else do
      let (s', f) ← basicIndex r s
      let start := sliceStart n a c
      let stop := sliceStop n b c
      let len := if c > 0 then ((stop - start + c - 1) / c).toNat else ((start - stop - c - 1) / (-c)).toNat
      some (len :: s', fun idx => (start + idx.headD 0 * c).toNat :: f idx.tail)

/-- Number of axes an index without ellipsis uses up. -/
def axesUsed : List Ix → Nat
  | [] => 0
  | .newAxis :: r => axesUsed r
  | _ :: r => axesUsed r + 1

/-- The slice `:`. -/
def fullSlice : Ix := .slice none none 1

/-- The result of NumPy basic indexing. -/
def Nd.index (a : Nd α) (items : List Ix) : Option (Nd α) := do
  let (s, f) ← basicIndex items a.shape
  some { shape := s, get := fun idx => a.get (f idx) }

end Spec
