import Verif.Spec.View
/-!
# Specification: arrays that share memory

What a NumPy user knows about sharing, without addresses: an allocation is a row of cells; an
array names one allocation and, for each of its indices, one cell.  A view names cells of the
allocation of its base.  A copy, and the result of an operation, gets a new allocation.
-/

namespace Spec

/-- An array: the number of its allocation, and the cell that each index names. -/
structure Obj where
  owner : Nat
  cells : Nd Nat

/-- All allocations of a program with their contents, and its variables; a deleted variable is
`none`. -/
structure World (α : Type u) where
  rows : List (List α)
  vars : List (Option Obj)

namespace World

/-- The array in a variable. -/
def var? (w : World α) (k : Nat) : Option Obj := (w.vars[k]?).join

/-- The element `o[i]`. -/
def read (w : World α) (o : Obj) (i : List Nat) : Option α :=
  (w.rows[o.owner]?).bind fun r => r[o.cells.get i]?

/-- `o[i] = x`. -/
def store (w : World α) (o : Obj) (i : List Nat) (x : α) : World α :=
  { w with rows := w.rows.modify o.owner fun r => r.set (o.cells.get i) x }

/-- Bind a new variable to an array. -/
def bind (w : World α) (o : Obj) : World α := { w with vars := w.vars ++ [some o] }

/-- A new variable with an allocation of its own. -/
def alloc (w : World α) (shape : List Nat) (row : List α) : World α :=
  { rows := w.rows ++ [row], vars := w.vars ++ [some ⟨w.rows.length, ⟨shape, rank shape⟩⟩] }

/-- `o[...] = x`. -/
def fill (w : World α) (o : Obj) (x : α) : World α :=
  (indices o.cells.shape).foldl (fun w i => w.store o i x) w

/-- `d[...] = s`: every value of `s` is the one from before the assignment. -/
def assign (w : World α) (d s : Obj) : World α :=
  (indices d.cells.shape).foldl (fun w' i =>
    match w.read s i with
    | some x => w'.store d i x
    | none => w') w

/-- The values of an array, in row-major order. -/
def values (w : World α) (o : Obj) : Option (List α) := (indices o.cells.shape).mapM (w.read o)

end World

/-- Rearrange the same elements, in row-major order, into another shape. -/
def Nd.reshape (a : Nd α) (s : List Nat) : Nd α :=
  { shape := s, get := fun i => a.get ((indices a.shape).getD (rank s i) []) }

end Spec
