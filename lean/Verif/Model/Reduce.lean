import Verif.Model.Elementwise
import Verif.Model.Float
/-!
# Model: reductions (src/ops/loops, src/ops/dispatch.rs, src/ops/ufunc.rs)

A reduction kernel is its `combine` function and its initial value.
-/

namespace Rumpy
open Spec

/-- The eight-way loop `while i < end`, src/ops/loops/contiguous.rs:108-118 and
src/ops/loops/strided.rs:95-105; `fuel` bounds the iterations (`n` suffices). -/
def chunkLoop (combine : α → α → α) (d : Nat → α) (stop : Nat) : Nat → Nat → (Nat → α) → Nat × (Nat → α)
  | 0, i, r => (i, r)
  | fuel + 1, i, r =>
    if i < stop then chunkLoop combine d stop fuel (i + 8) fun k => combine (r k) (d (i + k)) else (i, r)

/-- The remainder loop `while i < n`, src/ops/loops/contiguous.rs:126-129. -/
def restLoop (combine : α → α → α) (d : Nat → α) (n : Nat) : Nat → Nat → α → α
  | 0, _, acc => acc
  | fuel + 1, i, acc => if i < n then restLoop combine d n fuel (i + 1) (combine acc (d i)) else acc

/-- Tree combination of the eight accumulators, src/ops/loops/contiguous.rs:121-124. -/
def tree8 (combine : α → α → α) (r : Nat → α) : α :=
  combine (combine (combine (r 0) (r 1)) (combine (r 2) (r 3)))
    (combine (combine (r 4) (r 5)) (combine (r 6) (r 7)))

/-- `reduce` (src/ops/loops/contiguous.rs:77-133) and `reduce_strided`
(src/ops/loops/strided.rs:58-119): `d i` is the `i`-th element. -/
def reduce8 (combine : α → α → α) (init : α) (d : Nat → α) (n : Nat) : α :=
  if n = 0 then init
  else if n < 8 then (List.range n).foldl (fun acc i => combine acc (d i)) init
  else
    let (i, r) := chunkLoop combine d (n - n % 8) n 8 fun k => combine init (d k)
    restLoop combine d n n i (tree8 combine r)

/-- `dispatch_reduce_typed`, src/ops/dispatch.rs:541-563; `none` sends the caller to the fallback. -/
def reduceTyped (combine : α → α → α) (init : α) (mem : Int → α) (v : View) : Option α :=
  let size := sizeOf v.shape
  if size = 0 then some init
  else if v.cFlag then some (reduce8 combine init (fun i => mem (v.offset + i * v.item)) size)
  else
    let ndim := v.shape.length
    if ndim ≤ 1 then some (reduce8 combine init (fun i => mem (v.offset + stride1 ndim v * i)) size)
    else none

/-- `reduce_all_op`, src/ops/ufunc.rs:529-594, with the per-element loop as fallback (the trait's
`reduce_acc` on integers is the same function as the kernel's `combine`,
src/array/dtype/macros.rs:340-350). -/
def reduceAll (combine : α → α → α) (init : α) (mem : Int → α) (v : View) : α :=
  match reduceTyped combine init mem v with
  | some x => x
  | none => if sizeOf v.shape = 0 then init else v.addrs.foldl (fun acc p => combine acc (mem p)) init

/-- What the caller of `sum`/`prod`/`max`/`min` on a signed 64-bit array gets
(src/ops/array_methods/reductions.rs:16-54): on the typed path the value is stored through
`full(vec![1], val as f64, dtype)` (src/ops/dispatch.rs:497-499), and in all cases it is read back
with `get_element` as `f64`. -/
def reduceAllI64 (combine : BitVec 64 → BitVec 64 → BitVec 64) (init : BitVec 64) (mem : Int → BitVec 64)
    (v : View) : Int :=
  match reduceTyped combine init mem v with
  | some x => intToF64 (viaF64 x.toInt)
  | none => intToF64 (reduceAll combine init mem v).toInt

/-- The row-major accumulation for C-contiguous arrays, src/ops/dispatch.rs:665-700: output
positions in loop order, the source index running sequentially. -/
def accumulateRows (combine : α → α → α) (init : α) (d : Nat → α) (outer axisLen inner outSize : Nat) : List α :=
  let pos := (List.range outer).flatMap fun o => (List.range axisLen).flatMap fun _ =>
    (List.range inner).map fun k => o * inner + k
  pos.zipIdx.foldl (fun out ps => out.modify ps.1 fun acc => combine acc (d ps.2)) (List.replicate outSize init)

/-- `dispatch_reduce_axis_typed`, src/ops/dispatch.rs:618-711 (the axis is in range: callers check). -/
def reduceAxis (combine : α → α → α) (init : α) (mem : Int → α) (v : View) (axis : Nat) (zero : α) : Arr α :=
  let axisLen := v.shape.getD axis 0
  let os := v.shape.eraseIdx axis
  let outShape := if os.isEmpty then [1] else os
  let st := v.strides.getD axis 0
  let outSize := sizeOf outShape
  let blank := List.replicate outSize zero
  if outSize = 0 ∨ axisLen = 0 then ⟨outShape, List.replicate outSize init⟩
  else if st = v.item then
    ⟨outShape, writes ((axisOffsetIter v.shape v.strides axis 0).toList.zipIdx.map fun ob =>
      (ob.2, reduce8 combine init (fun j => mem (v.offset + ob.1 + j * v.item)) axisLen)) blank⟩
  else if v.cFlag then
    let outer := max (sizeOf (v.shape.take axis)) 1
    let inner := max (sizeOf (v.shape.drop (axis + 1))) 1
    ⟨outShape, accumulateRows combine init (fun i => mem (v.offset + i * v.item)) outer axisLen inner outSize⟩
  else
    ⟨outShape, writes ((axisOffsetIter v.shape v.strides axis 0).toList.zipIdx.map fun ob =>
      (ob.2, reduce8 combine init (fun j => mem (v.offset + ob.1 + st * j)) axisLen)) blank⟩

/-- Registry and trait fallback of `reduce_axis_op`, src/ops/ufunc.rs:627-693 (bool, datetime,
...): an empty axis returns the zero-filled result. -/
def reduceAxisFallback (combine : α → α → α) (init : α) (mem : Int → α) (v : View) (axis : Nat) (zero : α) : Arr α :=
  let axisLen := v.shape.getD axis 0
  let os := v.shape.eraseIdx axis
  let outShape := if os.isEmpty then [1] else os
  let st := v.strides.getD axis 0
  let outSize := sizeOf outShape
  if outSize = 0 ∨ axisLen = 0 then ⟨outShape, List.replicate outSize zero⟩
  else
    ⟨outShape, writes ((axisOffsetIter v.shape v.strides axis 0).toList.zipIdx.map fun ob =>
      (ob.2, (List.range axisLen).foldl (fun acc (j : Nat) => combine acc (mem (v.offset + ob.1 + st * j))) init))
      (List.replicate outSize init)⟩

/-! ### Kernels (src/ops/kernels/arithmetic.rs:423-452) -/

/-- `Sum` for integers: `wrapping_add`. -/
def sumCombine (acc v : BitVec w) : BitVec w := acc + v
/-- `Prod` for integers: `wrapping_mul`. -/
def prodCombine (acc v : BitVec w) : BitVec w := acc * v
/-- `Max`: `if v > acc { v } else { acc }`; `key` is the number an element stands for
(`BitVec.toInt` for the signed dtypes, `BitVec.toNat` for the unsigned ones). -/
def maxCombine [LT κ] [DecidableLT κ] (key : α → κ) (acc v : α) : α := if key acc < key v then v else acc
/-- `Min`: `if v < acc { v } else { acc }`. -/
def minCombine [LT κ] [DecidableLT κ] (key : α → κ) (acc v : α) : α := if key v < key acc then v else acc
/-- `SumOfSquares`: `acc + v * v`. -/
def sumSqCombine [Add α] [Mul α] (acc v : α) : α := acc + v * v

/-- `sum_of_squares`, src/ops/array_methods/reductions.rs:27-29 over
`dispatch_reduce_sum_of_squares` (src/ops/dispatch.rs:444-471): the strided n-d case gives `0.0`. -/
def sumOfSquares [Add α] [Mul α] [OfNat α 0] (mem : Int → α) (v : View) : α :=
  (reduceTyped sumSqCombine 0 mem v).getD 0

/-- A complex number with integer parts (enough to show what the complex kernels compute). -/
structure Cx where
  re : Int
  im : Int
  deriving DecidableEq, Repr

instance : Add Cx := ⟨fun a b => ⟨a.re + b.re, a.im + b.im⟩⟩
instance : Mul Cx := ⟨fun a b => ⟨a.re * b.re - a.im * b.im, a.re * b.im + a.im * b.re⟩⟩
instance : OfNat Cx 0 := ⟨⟨0, 0⟩⟩

/-- `sum_of_squares` of a complex array, src/ops/dispatch.rs:461-464: `c.re + c.im` of the sum of
`v * v`. -/
def sumOfSquaresCx (mem : Int → Cx) (v : View) : Int :=
  match reduceTyped sumSqCombine 0 mem v with
  | some c => c.re + c.im
  | none => 0

/-! ### NaN-skipping reductions.  A float is `none` for NaN. -/

/-- `NanSum`/`NanProd`/`NanMax`/`NanMin`, src/ops/kernels/arithmetic.rs:225-256: NaN values are
skipped. `op` is the operation on numbers. -/
def nanCombine (op : α → α → α) (acc v : Option α) : Option α :=
  match v with
  | none => acc
  | some x => acc.map fun a => op a x

/-- `nan_reduce_full`, src/ops/array_methods/reductions.rs:633-653: the value and whether any
number was seen. -/
def nanReduceFull (op : α → α → α) (init : α) (mem : Int → Option α) (v : View) : α × Bool :=
  if sizeOf v.shape = 0 then (init, false)
  else v.addrs.foldl (fun acc p =>
    match mem p with
    | some x => (op acc.1 x, true)
    | none => acc) (init, false)

/-- `nansum` and `nanprod`, src/ops/array_methods/reductions.rs:694-698, 719-723. -/
def nanReduce (op : α → α → α) (init : α) (mem : Int → Option α) (v : View) : Option α :=
  match reduceTyped (nanCombine op) (some init) mem v with
  | some x => x
  | none => some (nanReduceFull op init mem v).1

/-- `nanmax` and `nanmin`, src/ops/array_methods/reductions.rs:845-888: a result equal to the
initial infinity is taken to mean that every element was NaN. -/
def nanExtreme [DecidableEq α] (op : α → α → α) (init : α) (mem : Int → Option α) (v : View) : Option α :=
  match reduceTyped (nanCombine op) (some init) mem v with
  | some x => if x = some init then none else x
  | none =>
    let r := nanReduceFull op init mem v
    if r.2 then some r.1 else none

end Rumpy
