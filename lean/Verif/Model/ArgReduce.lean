import Verif.Model.Reduce
import Verif.Model.Search
/-!
# Model: argmax and argmin (src/ops/array_methods/reductions.rs)

`gt v best` is the comparison `v > best_val` (argmax) or `v < best_val` (argmin).
-/

namespace Rumpy
open Spec

/-- The comparison loop shared by all variants, e.g. src/ops/array_methods/reductions.rs:456-462. -/
def argScan (gt : α → α → Bool) (d : Nat → α) (js : List Nat) (s : α × Nat) : α × Nat :=
  js.foldl (fun s j => if gt (d j) s.1 then (d j, j) else s) s

/-- `argmax_contiguous`, `argmin_contiguous`, src/ops/array_methods/reductions.rs:452-480. -/
def argContiguous (gt : α → α → Bool) (d : Nat → α) (n : Nat) : Nat :=
  if n = 0 then 0 else (argScan gt d (List.range' 1 (n - 1)) (d 0, 0)).2

/-- `argmax_strided`, `argmin_strided`, src/ops/array_methods/reductions.rs:483-509, and
`argmax_slow`, `argmin_slow`, 291-322: the search starts from the smallest (largest) value of the
type. -/
def argStrided (gt : α → α → Bool) (init : α) (mem : Int → α) (v : View) : Nat :=
  (v.addrs.zipIdx.foldl (fun (s : α × Nat) pi => if gt (mem pi.1) s.1 then (mem pi.1, pi.2) else s) (init, 0)).2

/-- `argmax`, `argmin`, src/ops/array_methods/reductions.rs:221-255 with `dispatch_argmax_full`
(433-439): `typed` says whether the dtype has a typed path. -/
def argFull (typed : Bool) (gt : α → α → Bool) (init : α) (mem : Int → α) (v : View) : Nat :=
  if sizeOf v.shape = 0 then 0
  else if typed && v.cFlag then argContiguous gt (fun i => mem (v.offset + i * v.item)) (sizeOf v.shape)
  else argStrided gt init mem v

/-- The row-major loop for C-contiguous arrays, src/ops/array_methods/reductions.rs:569-591.  The
two arrays `best_vals` and `result` are one list of pairs here. -/
def argRows (gt : α → α → Bool) (init : α) (d : Nat → α) (outer axisLen inner outSize : Nat) : List (α × Nat) :=
  let pos := (List.range outer).flatMap fun o => (List.range axisLen).flatMap fun a =>
    (List.range inner).map fun k => (o * inner + k, a)
  pos.zipIdx.foldl (fun out pas => out.modify pas.1.1 fun s =>
    if gt (d pas.2) s.1 then (d pas.2, pas.1.2) else s) (List.replicate outSize (init, 0))

/-- `argmax_axis_typed`, `argmin_axis_typed`, src/ops/array_methods/reductions.rs:513-614 (the axis
is in range: callers check).  In the general strided case the code dereferences one byte of an
element, cast to an address; this is a memory fault, modelled by `panic`. -/
def argAxis (gt : α → α → Bool) (init : α) (mem : Int → α) (v : View) (axis : Nat) : Outcome (Arr Nat) :=
  let axisLen := v.shape.getD axis 0
  let st := v.strides.getD axis 0
  let os := v.shape.eraseIdx axis
  let outShape := if os.isEmpty then [1] else os
  let outSize := sizeOf outShape
  let blank := List.replicate outSize 0
  if outSize = 0 ∨ axisLen = 0 then .ok ⟨outShape, blank⟩
  else if st = v.item then
    if v.cFlag ∧ v.shape.length = 2 ∧ axis = 1 then
      .ok ⟨outShape, writes ((List.range (v.shape.getD 0 0)).map fun row =>
        (row, argContiguous gt (fun j => mem (v.offset + ((row * axisLen + j : Nat) : Int) * v.item)) axisLen)) blank⟩
    else
      .ok ⟨outShape, writes ((axisOffsetIter v.shape v.strides axis 0).toList.zipIdx.map fun ob =>
        (ob.2, argContiguous gt (fun j => mem (v.offset + ob.1 + j * v.item)) axisLen)) blank⟩
  else if v.cFlag then
    let outer := max (sizeOf (v.shape.take axis)) 1
    let inner := max (sizeOf (v.shape.drop (axis + 1))) 1
    .ok ⟨outShape, (argRows gt init (fun i => mem (v.offset + i * v.item)) outer axisLen inner outSize).map (·.2)⟩
  else if 1 < axisLen then .panic
  else .ok ⟨outShape, writes ((axisOffsetIter v.shape v.strides axis 0).toList.zipIdx.map fun ob => (ob.2, 0)) blank⟩

/-- The input index built in `arg_reduce_axis_slow`, src/ops/array_methods/reductions.rs:364-372. -/
def argSlowIndex (ndim axis : Nat) (outer : List Nat) (j : Nat) : List Nat :=
  outer.take (min axis outer.length) ++ [j] ++ if axis < ndim - 1 ∧ axis < outer.length then outer.drop axis else []

/-- `arg_reduce_axis_slow`, src/ops/array_methods/reductions.rs:335-382 (int8, bool, float16, ...). -/
def argAxisSlow (gt : α → α → Bool) (mem : Int → α) (v : View) (axis : Nat) : Arr Nat :=
  let axisLen := v.shape.getD axis 0
  let os := v.shape.eraseIdx axis
  let outShape := if os.isEmpty then [1] else os
  let outSize := sizeOf outShape
  let blank := List.replicate outSize 0
  if outSize = 0 ∨ axisLen = 0 then ⟨outShape, blank⟩
  else ⟨outShape, writes ((odometerAll outShape).zipIdx.map fun io =>
    (io.2, argContiguous gt (fun j => mem (v.addr (argSlowIndex v.shape.length axis io.1 j))) axisLen)) blank⟩

end Rumpy
