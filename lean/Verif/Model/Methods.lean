import Verif.Model.Io
import Verif.Model.Search
import Verif.Model.Rearrange
/-!
# Model: methods of arrays (src/python/pyarray/mod.rs)

Elements that are read and written as `f64` pass through `conv`.
-/

namespace Rumpy
open Spec

/-- `get_flat_element`, src/python/pyarray/mod.rs:1513-1527. -/
def flatElement (conv : α → α) (mem : Int → α) (v : View) (k : Nat) : α := conv (mem (v.addr (unflattenAux v.shape k).1))

/-- `__next__` of the flat iterator with the position `index`, src/python/pyarray/mod.rs:1486-1496. -/
def flatNext (conv : α → α) (mem : Int → α) (v : View) (index : Nat) : Option α × Nat :=
  if sizeOf v.shape ≤ index then (none, index) else (some (flatElement conv mem v index), index + 1)

/-- Calls of `__next__`, one for each memory in the list: what the array holds at the time of the call. -/
def flatCalls (conv : α → α) (v : View) : List (Int → α) → Nat → List (Option α)
  | [], _ => []
  | mem :: rest, index => (flatNext conv mem v index).1 :: flatCalls conv v rest (flatNext conv mem v index).2

/-- `__getitem__` of the flat iterator, src/python/pyarray/mod.rs:1502-1510. -/
def flatGetItem (conv : α → α) (mem : Int → α) (v : View) (index : Int) : Option α :=
  let size : Int := sizeOf v.shape
  let idx := if index < 0 then size + index else index
  if idx < 0 ∨ size ≤ idx then none else some (flatElement conv mem v idx.toNat)

/-- `resize`, src/python/pyarray/mod.rs:799-834, for lengths that are not negative. -/
def resizeMethod (conv : α → α) (mem : Int → α) (v : View) (shape : List Nat) (zero : α) : Arr α :=
  let newSize := sizeOf shape
  let oldSize := sizeOf v.shape
  if newSize = 0 then ⟨shape, List.replicate newSize zero⟩
  else
    let data := v.addrs.map mem
    ⟨shape, writes ((data.take (min oldSize newSize)).zipIdx.map fun xi => (xi.2, conv xi.1)) (List.replicate newSize zero)⟩

/-- The fast path of `repeat`, src/python/pyarray/mod.rs:544-553; `cell i` is the element at position `i`. -/
def repeatFast (conv : α → α) (cell : Nat → α) (n repeats : Nat) (zero : α) : List α :=
  writes ((List.range n).flatMap fun i => (List.range repeats).map fun j => (i * repeats + j, conv (cell i)))
    (List.replicate (n * repeats) zero)

/-- `repeat`, src/python/pyarray/mod.rs:517-568. -/
def repeatMethod (eight : Bool) (conv : α → α) (mem : Int → α) (v : View) (repeats : Nat) (axis : Option Nat) (zero : α) :
    Option (Arr α) :=
  match axis with
  | none =>
    let data := (copyArr eight mem v zero).data
    some ⟨[sizeOf v.shape * repeats], repeatFast conv (fun i => data.getD i zero) (sizeOf v.shape) repeats zero⟩
  | some ax =>
    if v.shape.length ≤ ax then none
    else
      let out := v.shape.modify ax (· * repeats)
      if v.shape.length = 1 ∧ v.cFlag = true then
        some ⟨out, repeatFast conv (fun i : Nat => mem (v.offset + (i : Int) * v.item)) (v.shape.getD 0 0) repeats zero⟩
      else
        some ⟨out, writes ((odometerAll out).zipIdx.map fun di => (di.2, conv (mem (v.addr (di.1.modify ax (· / repeats))))))
          (List.replicate (sizeOf out) zero)⟩

/-- `view`, src/python/pyarray/mod.rs:654-706, for an element size of the new dtype that is not 0. -/
def viewDtype (v : View) (item : Nat) : Option View :=
  if v.cFlag = false then none
  else if v.shape = [] then none
  else
    let lastBytes := v.shape.getLastD 0 * v.item
    if lastBytes % item ≠ 0 then none
    else
      let shape := v.shape.set (v.shape.length - 1) (lastBytes / item)
      if sizeOf shape * item ≠ sizeOf v.shape * v.item then none
      else some (v.viewWithDtype shape (cStrides shape item) item)

/-- `tobytes`, src/python/pyarray/mod.rs:626-639. -/
def tobytes (mem : Int → UInt8) (d : DType) (v : View) : List UInt8 := contiguousBytes mem d v

end Rumpy
