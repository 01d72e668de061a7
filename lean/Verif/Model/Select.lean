import Verif.Model.Array
import Verif.Spec.Select
/-!
# Model: selection (src/array/mod.rs:224-346, src/ops/indexing.rs:1-491, src/ops/mod.rs:135-158)
-/

namespace Rumpy
open Spec

/-- The addresses `iter_offsets` yields, src/array/mod.rs:130-132, with the data pointer added. -/
def View.addrs (v : View) : List Int := (StridedIter.new v.shape v.strides v.offset).toList

/-- The "copy the selected ones" loops with a destination counter, e.g.
src/array/mod.rs:270-281 and src/ops/indexing.rs:270-276. -/
def packLoop (p : ι → Bool) (f : ι → α) : List ι → Nat → List (Nat × α)
  | [], _ => []
  | i :: r, dst => if p i then (dst, f i) :: packLoop p f r (dst + 1) else packLoop p f r dst

/-- `select_by_mask`, src/array/mod.rs:227-283.  The mask is a bool array, so truthiness is its
value; the first pass counts, the second copies. -/
def selectByMask (zero : α) (a : Nd α) (mask : Nd Bool) : Option (Arr α) :=
  if a.shape ≠ mask.shape then none
  else if sizeOf a.shape = 0 then some ⟨[0], []⟩
  else
    let count := (odometerAll mask.shape).foldl (fun c i => if mask.get i then c + 1 else c) 0
    let blank := List.replicate count zero
    if count = 0 then some ⟨[count], blank⟩
    else some ⟨[count], writes (packLoop mask.get a.get (odometerAll a.shape) 0) blank⟩

/-- `normalize_index`, src/ops/indexing.rs:8-15, and the same arithmetic in
src/array/mod.rs:317-326.  A negative sum cast with `as usize` is at least 2^63, so the bounds
check rejects it. -/
def normalizeIdx (idx : Int) (len : Nat) : Option Nat :=
  let n : Int := if idx < 0 then (len : Int) + idx else idx
  if 0 ≤ n ∧ n < len then some n.toNat else none

/-- The stores of the row loop of `select_by_indices`, src/array/mod.rs:315-343: `sliceSize`
steps of the odometer over the trailing axes. -/
def selectRows (a : Nd α) (axisLen : Nat) (tail : List Nat) (sliceSize : Nat) :
    List Int → Nat → Option (List (Nat × α))
  | [], _ => some []
  | iv :: r, i => do
    let k ← normalizeIdx iv axisLen
    let rest ← selectRows a axisLen tail sliceSize r (i + 1)
    some (((odometer tail sliceSize (List.replicate tail.length 0)).zipIdx.map
      fun tj => (i * sliceSize + tj.2, a.get (k :: tj.1))) ++ rest)

/-- `slice_size` with its `max(1)`, src/array/mod.rs:306. -/
def selectSliceSize (tail : List Nat) : Nat := max (sizeOf tail) 1

/-- `select_by_indices`, src/array/mod.rs:288-346.  Index values are read as integers; the code
reads them through `f64`, which is exact below 2^53. -/
def selectByIndices (zero : α) (a : Nd α) (idx : Nd Int) : Option (Arr α) :=
  match a.shape with
  | [] => none
  | n :: tail =>
    let out := sizeOf idx.shape :: tail
    let blank := List.replicate (sizeOf out) zero
    if sizeOf idx.shape = 0 then some ⟨out, blank⟩
    else do
      let ws ← selectRows a n tail (selectSliceSize tail) ((odometerAll idx.shape).map idx.get) 0
      some ⟨out, writes ws blank⟩

/-- `take_1d_contiguous`, src/ops/indexing.rs:61-79. -/
def take1dStores (mem : Int → α) (v : View) (ks : List Nat) : List (Nat × α) :=
  ks.zipIdx.map fun ki => (ki.2, mem (v.offset + (ki.1 * v.item : Nat)))

/-- `take_axis0_contiguous`, src/ops/indexing.rs:82-101.  One `copy_nonoverlapping` of
`row_bytes = strides[0]` bytes is written as `row_bytes / itemsize` element copies (strides are
multiples of the item size). -/
def takeAxis0Stores (mem : Int → α) (v : View) (ks : List Nat) : List (Nat × α) :=
  let rowBytes := (v.strides.headD 0).toNat
  let rowElems := rowBytes / v.item
  ks.zipIdx.flatMap fun ki => (List.range rowElems).map fun e =>
    (ki.2 * rowElems + e, mem (v.offset + (ki.1 * rowBytes + e * v.item : Nat)))

/-- `take_general`, src/ops/indexing.rs:104-146. -/
def takeGeneralStores (mem : Int → α) (v : View) (ks : List Nat) (axis : Nat) (out : List Nat) :
    List (Nat × α) :=
  (odometerAll out).zipIdx.map fun io =>
    (io.2, mem (v.offset + byteOffset (io.1.set axis (ks.getD (io.1.getD axis 0) 0)) v.strides))

/-- The stores `take` makes once the indices are validated, src/ops/indexing.rs:46-56. -/
def takeStores (mem : Int → α) (v : View) (ks : List Nat) (axis : Nat) (out : List Nat) : List (Nat × α) :=
  if v.shape.length = 1 ∧ v.cFlag then take1dStores mem v ks
  else if axis = 0 ∧ v.cFlag then takeAxis0Stores mem v ks
  else takeGeneralStores mem v ks axis out

/-- `take`, src/ops/indexing.rs:18-58; `idx` are the index values in row-major order. -/
def take (zero : α) (mem : Int → α) (v : View) (idx : List Int) (axis : Option Nat) : Option (Arr α) :=
  let axis := axis.getD 0
  if axis ≥ v.shape.length then none
  else
    let out := v.shape.set axis idx.length
    let blank := List.replicate (sizeOf out) zero
    if idx.length = 0 then some ⟨out, blank⟩
    else do
      let ks ← idx.mapM fun i => normalizeIdx i (v.shape.getD axis 0)
      some ⟨out, writes (takeStores mem v ks axis out) blank⟩

/-- `take_along_axis`, src/ops/indexing.rs:149-219; the loop returns `None` at the first index
out of range. -/
def takeAlongAxis (zero : α) (a : Nd α) (idx : Nd Int) (axis : Nat) : Option (Arr α) :=
  if axis ≥ a.shape.length ∨ idx.shape.length ≠ a.shape.length then none
  else if !((List.range a.shape.length).all fun i => i == axis || a.shape.getD i 0 == idx.shape.getD i 0) then none
  else do
    let ws ← (odometerAll idx.shape).zipIdx.mapM fun io => do
      let k ← normalizeIdx (idx.get io.1) (a.shape.getD axis 0)
      some (io.2, a.get (io.1.set axis k))
    some ⟨idx.shape, writes ws (List.replicate (sizeOf idx.shape) zero)⟩

/-- `compress_flat`, src/ops/indexing.rs:229-280: fast path for a contiguous vector, else
`iter_offsets`. -/
def compressFlat (zero : α) (mem : Int → α) (cond : List Bool) (v : View) : Arr α :=
  let condLen := min cond.length (sizeOf v.shape)
  let count := ((cond.take condLen).filter id).length
  let blank := List.replicate count zero
  if count = 0 then ⟨[count], blank⟩
  else if v.shape.length = 1 ∧ v.cFlag then
    ⟨[count], writes (packLoop (fun (ic : Bool × Nat) => ic.1)
      (fun ic => mem (v.offset + (ic.2 * v.item : Nat))) (cond.take condLen).zipIdx 0) blank⟩
  else
    ⟨[count], writes (packLoop (fun (oi : Int × Nat) => cond.getD oi.2 false)
      (fun oi => mem oi.1) (v.addrs.take condLen).zipIdx 0) blank⟩

/-- `compress_axis`, src/ops/indexing.rs:282-340. -/
def compressAxis (zero : α) (cond : List Bool) (a : Nd α) (axis : Nat) : Option (Arr α) :=
  if axis ≥ a.shape.length then none
  else
    let condLen := min cond.length (a.shape.getD axis 0)
    let count := ((cond.take condLen).filter id).length
    let out := a.shape.set axis count
    let blank := List.replicate (sizeOf out) zero
    if count = 0 then some ⟨out, blank⟩
    else
      let src := (cond.take condLen).zipIdx.filterMap fun bi => if bi.1 then some bi.2 else none
      some ⟨out, writes ((odometerAll out).zipIdx.map fun io =>
        (io.2, a.get (io.1.set axis (src.getD (io.1.getD axis 0) 0)))) blank⟩

/-- The stores of the second pass of `argwhere`, src/ops/indexing.rs:436-451. -/
def argwhereStores (outNdim : Nat) : List (List Nat × Bool) → Nat → List (Nat × Nat)
  | [], _ => []
  | (idx, t) :: r, row =>
    if t then idx.zipIdx.map (fun xj => (row * outNdim + xj.2, xj.1)) ++ argwhereStores outNdim r (row + 1)
    else argwhereStores outNdim r row

/-- `argwhere`, src/ops/indexing.rs:404-456; `truthy` is the dtype's `is_truthy`. -/
def argwhere (truthy : α → Bool) (a : Nd α) : Arr Nat :=
  let outNdim := max a.shape.length 1
  if sizeOf a.shape = 0 then ⟨[0, outNdim], []⟩
  else
    let count := ((odometerAll a.shape).filter fun i => truthy (a.get i)).length
    if count = 0 then ⟨[0, outNdim], []⟩
    else ⟨[count, outNdim], writes
      (argwhereStores outNdim ((odometerAll a.shape).map fun i => (i, truthy (a.get i))) 0)
      (List.replicate (count * outNdim) 0)⟩

/-- `flatnonzero`, src/ops/indexing.rs:459-492. -/
def flatnonzero (truthy : α → Bool) (mem : Int → α) (v : View) : Arr Nat :=
  if sizeOf v.shape = 0 then ⟨[0], []⟩
  else
    let count := (v.addrs.filter fun o => truthy (mem o)).length
    let blank := List.replicate count 0
    if count = 0 then ⟨[count], blank⟩
    else ⟨[count], writes (packLoop (fun (oi : Int × Nat) => truthy (mem oi.1)) (fun oi => oi.2)
      v.addrs.zipIdx 0) blank⟩

/-- One visit of the loop of `nonzero`, src/ops/mod.rs:135-158: push each coordinate on its
axis' list. -/
def nonzeroStep (nz : List Nat → Bool) (acc : List (List Nat)) (idx : List Nat) : List (List Nat) :=
  if nz idx then List.zipWith (fun l i => l ++ [i]) acc idx else acc

/-- `nonzero`, src/ops/mod.rs:135-158: one list of coordinates per axis. -/
def nonzero (nz : α → Bool) (a : Nd α) : List (List Nat) :=
  (odometerAll a.shape).foldl (nonzeroStep fun i => nz (a.get i)) (List.replicate a.shape.length [])

end Rumpy
