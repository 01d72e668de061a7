import Verif.Model.View
/-!
# Model: result arrays

Functions that allocate write their result element by element into a fresh
C-contiguous array.  An `Arr` is the shape of such an array and its elements in
memory order (`Props.C02_*` ties this order to byte addresses).  Inputs of such
functions are read through `byte_offset_for` or an offset iterator, so they are
given as `Spec.Nd`, the denotation of a view (`View.denote`).
-/

namespace Rumpy

/-- A freshly allocated C-contiguous array: shape and elements in memory order. -/
structure Arr (α : Type u) where
  shape : List Nat
  data : List α
deriving DecidableEq, Repr

/-- The element at a multi-index; `none` when the row-major position is past the end. -/
def Arr.at? (a : Arr α) (idx : List Nat) : Option α := a.data[Spec.rank a.shape idx]?

/-- The result array holds exactly the elements of an n-d array. -/
def Arr.Is (a : Arr α) (nd : Spec.Nd α) : Prop := a.shape = nd.shape ∧ a.data = nd.toList

/-- A sequence of stores `*result_ptr.add(i) = x`, in order.  A store outside the buffer is
undefined behaviour in the code; here it is dropped, so theorems about results also show
that all stores are in range. -/
def writes (ws : List (Nat × α)) (data : List α) : List α :=
  ws.foldl (fun d w => d.set w.1 w.2) data

/-- The loop computing a linear index, src/array/manipulation.rs:65-69 and 899-907
(`linear_index`): index and running stride. -/
def linearIndexAux : List Nat → List Nat → Nat × Nat
  | i :: idx, n :: s =>
    let (k, stride) := linearIndexAux idx s
    (k + i * stride, stride * n)
  | _, _ => (0, 1)

/-- `linear_index`, src/array/manipulation.rs:899-907. -/
def linearIndex (idx shape : List Nat) : Nat := (linearIndexAux idx shape).1

end Rumpy
