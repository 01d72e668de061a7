import Verif.Spec.Builders
import Verif.Model.Layout
import Verif.Model.View
import Verif.Model.Rearrange
import Verif.Model.Select
import Verif.Model.Search
import Mathlib.Data.Rat.Floor
/-!
# Model: index iterators, open and dense grids, filling the diagonal (src/python/indexing.rs)

Floats are exact rationals. An iterator is a state and a `next` function.
-/

namespace Rumpy
open Spec

/-! ### ndindex and ndenumerate -/

/-- `NdIndex`, src/python/indexing.rs:964-969, and the same fields of `NdEnumerate`, 900-906. -/
structure NdIter where
  shape : List Nat
  indices : List Nat
  flat : Nat
  size : Nat

/-- The end of `ndindex`, src/python/indexing.rs:1021-1036. -/
def ndindex (shape : List Nat) : NdIter :=
  if shape.length = 0 then ⟨shape, [], 0, 1⟩ else ⟨shape, List.replicate shape.length 0, 0, sizeOf shape⟩

/-- `NdIndex::__next__`, src/python/indexing.rs:977-994. -/
def NdIter.next (it : NdIter) : Option (List Nat) × NdIter :=
  if it.flat ≥ it.size then (none, it)
  else (some it.indices, { it with flat := it.flat + 1, indices := incrementIndices it.indices it.shape })

/-- `ndenumerate`, src/python/indexing.rs:947-957. -/
def ndenumerate (h : Held α) : NdIter := ⟨h.view.shape, List.replicate h.view.shape.length 0, 0, sizeOf h.view.shape⟩

/-- `NdEnumerate::__next__`, src/python/indexing.rs:914-942; `conv` is the passage through `f64`. -/
def NdIter.nextPair (conv : α → β) (h : Held α) (it : NdIter) : Option (List Nat × β) × NdIter :=
  if it.flat ≥ it.size then (none, it)
  else (some (it.indices, conv (h.mem (h.view.offset + byteOffset it.indices h.view.strides))),
    { it with flat := it.flat + 1, indices := incrementIndices it.indices it.shape })

/-- What `n` calls of `next` give, up to the first `None`. -/
def calls (next : σ → Option β × σ) : Nat → σ → List β
  | 0, _ => []
  | n + 1, s =>
    match next s with
    | (none, _) => []
    | (some x, s') => x :: calls next n s'

/-! ### ix_, ogrid and mgrid -/

/-- The loop of `ix_`, src/python/indexing.rs:751-768, from argument `i` on. -/
def ixLoop (n : Nat) : List (Held α) → Nat → Outcome (List (Held α))
  | [], _ => .ok []
  | h :: hs, i =>
    if h.view.shape.length ≠ 1 then .error
    else
      match h.view.reshape ((List.replicate n 1).set i (sizeOf h.view.shape)) with
      | none => .panic
      | some v =>
        match ixLoop n hs (i + 1) with
        | .ok rs => .ok (⟨h.mem, v⟩ :: rs)
        | .error => .error
        | .panic => .panic

/-- `ix_`, src/python/indexing.rs:743-771. -/
def ixOpen (hs : List (Held α)) : Outcome (List (Held α)) := ixLoop hs.length hs 0

/-- The step of a grid slice as given in Python. -/
inductive StepArg where
  | none
  | int (i : Int)
  | float (q : ℚ)
  | points (imag : ℚ)

/-- `GridStep`, src/python/indexing.rs:1126-1129. -/
inductive GridStep where
  | integer (i : Int)
  | complex (imag : ℚ)

/-- `as i64` and `as usize` of a float truncate. -/
def truncInt (q : ℚ) : Int := if 0 ≤ q then ⌊q⌋ else ⌈q⌉

/-- The step part of `parse_single_slice`, src/python/indexing.rs:1139-1162. A complex step with imaginary
part zero is not an integer or a float and is outside the model. -/
def gridStep : StepArg → GridStep
  | .none => .integer 1
  | .int i => .integer i
  | .float q => .integer (truncInt q)
  | .points im => .complex im

/-- The `while` loops of `generate_range_array`, src/python/indexing.rs:1173-1183. `fuel` bounds the rounds. -/
def rangeLoop (step : Int) (stop : ℚ) : Nat → ℚ → List ℚ
  | 0, _ => []
  | fuel + 1, val =>
    if step > 0 then if val < stop then val :: rangeLoop step stop fuel (val + step) else []
    else if step < 0 then if val > stop then val :: rangeLoop step stop fuel (val + step) else []
    else []

/-- The values of `generate_range_array`, src/python/indexing.rs:1167-1210. They are stored as int64 when
start and stop are whole numbers, and then all of them are. -/
def gridPoints (fuel : Nat) (start stop : ℚ) : GridStep → List ℚ
  | .integer step => rangeLoop step stop fuel start
  | .complex num =>
    let n := (truncInt num).toNat
    if n = 0 then []
    else if n = 1 then [start]
    else
      let step := (stop - start) / ((n - 1 : Nat) : ℚ)
      (List.range n).map fun (i : Nat) => start + (i : ℚ) * step

/-- The loop of `parse_grid_key`, src/python/indexing.rs:1099-1111, from slice `i` on. `none` is a failed
`expect`. -/
def gridLoop (item : Nat) (zero : α) (dense : Bool) (lens : List Nat) : List (List α) → Nat → Option (List (Held α))
  | [], _ => some []
  | x :: xs, i =>
    let h := Held.of ⟨[x.length], x⟩ item zero
    match h.view.reshape ((List.replicate lens.length 1).set i (lens.getD i 0)) with
    | none => none
    | some r =>
      match (if dense then r.broadcastTo lens else some r) with
      | none => none
      | some v => (gridLoop item zero dense lens xs (i + 1)).map fun rs => ⟨h.mem, v⟩ :: rs

/-- `parse_grid_key`, src/python/indexing.rs:1068-1117, after the slices have become their points; a single
slice gives its vector. -/
def gridArrays (item : Nat) (zero : α) (dense : Bool) (xs : List (List α)) : Outcome (List (Held α)) :=
  match xs with
  | [] => .error
  | [x] => .ok [Held.of ⟨[x.length], x⟩ item zero]
  | xs =>
    match gridLoop item zero dense (xs.map List.length) xs 0 with
    | none => .panic
    | some rs => .ok rs

/-! ### fill_diagonal -/

/-- The value array of `fill_diagonal` is read from its start, `itemsize` bytes apart:
src/python/indexing.rs:827-829, 859, 881. -/
def valAt (val : Held α) (k : Nat) : α := val.mem (val.view.offset + (k : Int) * (val.view.item : Int))

/-- The loop for matrices, src/python/indexing.rs:852-876. `fuel` is the number of rows left; `none` is the
panic of `% 0`. -/
def fillRows (wrap : Bool) (v : View) (val : Held α) (ncols minDim : Nat) : Nat → Nat → Nat → (Int → α) → Option (Int → α)
  | 0, _, _, mem => some mem
  | fuel + 1, row, k, mem =>
    let col := row % (ncols + 1)
    let r : Option ((Int → α) × Nat) :=
      if col < ncols then
        if sizeOf val.view.shape = 0 then none
        else some (setElement mem v [row, col] (valAt val (k % sizeOf val.view.shape)), k + 1)
      else some (mem, k)
    match r with
    | none => none
    | some (mem, k) =>
      if !wrap && row + 1 ≥ minDim then some mem else fillRows wrap v val ncols minDim fuel (row + 1) k mem

/-- The loop for other ranks, src/python/indexing.rs:879-889. -/
def fillAll (v : View) (val : Held α) : Nat → Nat → (Int → α) → Option (Int → α)
  | 0, _, mem => some mem
  | fuel + 1, i, mem =>
    if sizeOf val.view.shape = 0 then none
    else fillAll v val fuel (i + 1) (setElement mem v (List.replicate v.shape.length i) (valAt val (i % sizeOf val.view.shape)))

/-- `fill_diagonal`, src/python/indexing.rs:776-893, for values that already have the dtype of the array and
are in another buffer. The result is the memory of the array. -/
def fillDiagonal (h : Held α) (val : Held α) (wrap : Bool) : Outcome (Int → α) :=
  match h.view.shape with
  | [] => .error
  | [_] => .error
  | [nrows, ncols] =>
    match fillRows wrap h.view val ncols (min nrows ncols) nrows 0 0 h.mem with
    | none => .panic
    | some m => .ok m
  | s =>
    match fillAll h.view val (s.foldl min (s.headD 0)) 0 h.mem with
    | none => .panic
    | some m => .ok m

/-! ### Index arrays -/

/-- How `unravel_index` reads an array of indices, src/python/indexing.rs:389-395. -/
def indexList (h : Held Int) : List Int :=
  (List.range (sizeOf h.view.shape)).map fun (i : Nat) => h.mem (h.view.offset + (i : Int) * (h.view.item : Int))

/-- How `ravel_multi_index` reads a matrix of indices, src/python/indexing.rs:445-467: one list per row. -/
def multiIndex (h : Held Int) : Option (List (List Int)) :=
  match h.view.shape, h.view.strides with
  | [n, m], [s, t] => some ((List.range n).map fun (d : Nat) => (List.range m).map fun (e : Nat) =>
      h.mem (h.view.offset + ((d : Int) * s + (e : Int) * t)))
  | _, _ => none

/-- `diag_indices_from`, src/python/indexing.rs:498-527. -/
def diagIndicesFrom (shape : List Nat) : Option (List (List Nat)) :=
  if shape.length < 2 then none
  else if shape.tail.any fun d => d ≠ shape.headD 0 then none
  else some (diagIndices (shape.headD 0) shape.length)

/-- The end of `mask_indices`, src/python/indexing.rs:634-676, given what the mask function returned. `none`
is a read past the end of the buffer. -/
def maskIndices (truthy : α → Bool) (m : Nd α) : Option (List Nat × List Nat) :=
  let r := argwhere truthy m
  if r.shape.headD 0 = 0 then some ([], [])
  else do
    let rows ← (List.range (r.shape.headD 0)).mapM fun i => r.data[i * 2]?
    let cols ← (List.range (r.shape.headD 0)).mapM fun i => r.data[i * 2 + 1]?
    return (rows, cols)

end Rumpy
