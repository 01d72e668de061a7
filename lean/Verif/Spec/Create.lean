import Verif.Spec.Nd
/-!
# Specification: ranges, grids, triangles and diagonals
-/

namespace Spec

/-- The first two entries exchanged. -/
def swapFirstTwo : List α → List α
  | a :: b :: r => b :: a :: r
  | l => l

namespace Nd

/-- Coordinate `d` of every grid point: `grid d [i0, i1, ..] = i_d`. -/
def grid (dims : List Nat) (d : Nat) : Nd Nat := { shape := dims, get := fun idx => idx.getD d 0 }

/-- The matrix that keeps the entries of `f` in the chosen positions and is `zero` elsewhere. -/
def mask (n m : Nat) (p : Nat → Nat → Prop) [∀ i j, Decidable (p i j)] (f : Nat → Nat → α) (zero : α) : Nd α :=
  { shape := [n, m]
    get := fun idx => if p (idx.getD 0 0) (idx.getD 1 0) then f (idx.getD 0 0) (idx.getD 1 0) else zero }

/-- The matrix on or below diagonal `k` (`k > 0` lies above the main diagonal). -/
def lower (a : Nd α) (k : Int) (zero : α) : Nd α :=
  mask (a.shape.getD 0 0) (a.shape.getD 1 0) (fun i j => (j : Int) ≤ i + k) (fun i j => a.get [i, j]) zero

/-- The matrix on or above diagonal `k`. -/
def upper (a : Nd α) (k : Int) (zero : α) : Nd α :=
  mask (a.shape.getD 0 0) (a.shape.getD 1 0) (fun i j => (i : Int) + k ≤ j) (fun i j => a.get [i, j]) zero

/-- Square matrix with the values of a list on diagonal `k`. -/
def onDiagonal (l : List α) (k : Int) (zero : α) : Nd α :=
  mask (l.length + k.natAbs) (l.length + k.natAbs) (fun i j => (j : Int) = i + k) (fun i j => l.getD (min i j) zero) zero

/-- The main diagonal of a matrix. -/
def diagonalOf (a : Nd α) : Nd α :=
  { shape := [min (a.shape.getD 0 0) (a.shape.getD 1 0)], get := fun idx => a.get [idx.getD 0 0, idx.getD 0 0] }

end Nd
end Spec
