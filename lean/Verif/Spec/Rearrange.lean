import Verif.Spec.View
/-!
# Specification: rolling, rotating, repeating, tiling, padding, inserting and deleting
-/

namespace Spec
namespace Nd

/-- `roll(a, shift, axis)`: the element at position `k` of the axis moves to position
`k + shift`, wrapping around. -/
def roll (a : Nd α) (axis : Nat) (shift : Int) : Nd α :=
  { shape := a.shape
    get := fun idx => a.get (idx.modify axis fun k => (((k : Int) - shift) % (a.shape.getD axis 0 : Int)).toNat) }

/-- `roll(a, shift)`: positions are counted in row-major order and wrap around; the shape stays. -/
def IsRolledFlat (a r : Nd α) (shift : Int) : Prop :=
  r.shape = a.shape ∧ ∀ i j, InShape a.shape i → InShape a.shape j →
    ((rank a.shape i : Int) + shift) % (size a.shape : Int) = rank a.shape j → r.get j = a.get i

/-- `repeat(a, n, axis)`: every position of the axis is repeated `n` times in a row. -/
def repeatAxis (a : Nd α) (axis n : Nat) : Nd α :=
  { shape := a.shape.modify axis (· * n), get := fun idx => a.get (idx.modify axis (· / n)) }

/-- A shape or list of repetitions extended on the left with ones to `n` entries. -/
def padOnes (n : Nat) (s : List Nat) : List Nat := List.replicate (n - s.length) 1 ++ s

/-- `tile(a, reps)`: copies of `a` side by side, `reps[k]` of them along axis `k`; the shorter of
the shape and `reps` is extended on the left with ones. -/
def tile (a : Nd α) (reps : List Nat) : Nd α :=
  let n := max a.shape.length reps.length
  { shape := List.zipWith (· * ·) (padOnes n a.shape) (padOnes n reps)
    get := fun idx => a.get ((List.zipWith (· % ·) idx (padOnes n a.shape)).drop (n - a.shape.length)) }

/-- The shape after adding `w[k] = (before, after)` cells to axis `k`. -/
def padShape (s : List Nat) (w : List (Nat × Nat)) : List Nat :=
  List.zipWith (fun n p => n + p.1 + p.2) s w

/-- `pad(a, w, "constant", c)`: the array in the middle, `c` elsewhere. -/
def padConst (a : Nd α) (w : List (Nat × Nat)) (c : α) : Nd α :=
  { shape := padShape a.shape w
    get := fun idx =>
      if ∀ k, k < a.shape.length → (w.getD k (0, 0)).1 ≤ idx.getD k 0 ∧
          idx.getD k 0 < (w.getD k (0, 0)).1 + a.shape.getD k 0
      then a.get (List.zipWith (fun i p => i - p.1) idx w) else c }

/-- `pad(a, w, "edge")`: the nearest element of the array. -/
def padEdge (a : Nd α) (w : List (Nat × Nat)) : Nd α :=
  { shape := padShape a.shape w
    get := fun idx => a.get ((List.range a.shape.length).map fun k =>
      min (idx.getD k 0 - (w.getD k (0, 0)).1) (a.shape.getD k 0 - 1)) }

/-- A quarter turn from axis `p` towards axis `q`: `r[i, j] = a[j, n - 1 - i]`, writing the
coordinates of `p` and `q` only. -/
def quarterTurn (a : Nd α) (p q : Nat) : Nd α :=
  { shape := (a.shape.set p (a.shape.getD q 0)).set q (a.shape.getD p 0)
    get := fun idx => a.get ((idx.set p (idx.getD q 0)).set q (a.shape.getD q 0 - 1 - idx.getD p 0)) }

/-- `n` quarter turns. -/
def quarterTurns (a : Nd α) (p q : Nat) : Nat → Nd α
  | 0 => a
  | n + 1 => (a.quarterTurns p q n).quarterTurn p q

/-- `b` put into `a` along an axis, so that it starts at position `p`. -/
def insertAlong (a : Nd α) (axis p : Nat) (b : Nd α) : Nd α :=
  { shape := a.shape.modify axis (· + b.shape.getD axis 0)
    get := fun idx =>
      if idx.getD axis 0 < p then a.get idx
      else if idx.getD axis 0 < p + b.shape.getD axis 0 then b.get (idx.modify axis (· - p))
      else a.get (idx.modify axis (· - b.shape.getD axis 0)) }

/-- `a` without position `p` of an axis. -/
def deleteAt (a : Nd α) (axis p : Nat) : Nd α :=
  { shape := a.shape.modify axis (· - 1)
    get := fun idx => a.get (idx.modify axis fun k => if k < p then k else k + 1) }

end Nd

/-- Where `insert(a, i, ...)` puts the new elements on an axis of length `n`: before the element
`a[i]`, or at the end for `i = n`. -/
def insertPos (n : Nat) (i : Int) : Option Nat := if i = n then some n else
  if 0 ≤ i ∧ i < n then some i.toNat
  else if i < 0 ∧ -(n : Int) ≤ i then some ((n : Int) + i).toNat
  else none

end Spec
