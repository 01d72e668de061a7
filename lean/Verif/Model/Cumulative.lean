import Verif.Model.ArgReduce
/-!
# Model: cumulative operations and differences (src/ops/dispatch.rs,
src/ops/array_methods/cumulative.rs)
-/

namespace Rumpy
open Spec

/-- `cumulative`, src/ops/loops/contiguous.rs:141-151: the accumulator after each element. -/
def cumLoop (combine : β → α → β) : β → List α → List β
  | _, [] => []
  | acc, x :: xs => combine acc x :: cumLoop combine (combine acc x) xs

/-- `dispatch_cumulative_flat`, src/ops/dispatch.rs:1972-2004. -/
def cumFlat (combine : α → α → α) (init : α) (mem : Int → α) (v : View) (zero : α) : Arr α :=
  let size := sizeOf v.shape
  if size = 0 then ⟨[0], []⟩
  else
    let src := if v.cFlag then (List.range size).map fun (i : Nat) => mem (v.offset + i * v.item) else v.addrs.map mem
    ⟨[size], writes ((cumLoop combine init src).zipIdx.map fun xi => (xi.2, xi.1)) (List.replicate size zero)⟩

/-- The index whose row-major position receives the result, src/ops/dispatch.rs:2077-2083. -/
def cumIndex (ndim axis : Nat) (outer : List Nat) (j : Nat) : List Nat :=
  (List.range ndim).map fun d => if d = axis then j else if d < axis then outer.getD d 0 else outer.getD (d - 1) 0

/-- `dispatch_cumulative_axis`, src/ops/dispatch.rs:2007-2091 (the axis is in range: callers check). -/
def cumAxis (combine : α → α → α) (init : α) (mem : Int → α) (v : View) (axis : Nat) (zero : α) : Arr α :=
  let size := sizeOf v.shape
  let axisLen := v.shape.getD axis 0
  let st := v.strides.getD axis 0
  let blank := List.replicate size zero
  if size = 0 then ⟨v.shape, []⟩
  else if st = v.item ∧ v.cFlag then
    ⟨v.shape, writes ((List.range (size / axisLen)).flatMap fun lane =>
      (cumLoop combine init ((List.range axisLen).map fun (j : Nat) =>
        mem (v.offset + ((lane * axisLen + j : Nat) : Int) * v.item))).zipIdx.map
          fun xj => (lane * axisLen + xj.2, xj.1)) blank⟩
  else
    let os := v.shape.eraseIdx axis
    let outerShape := if os.isEmpty then [1] else os
    ⟨v.shape, writes ((odometerAll outerShape).flatMap fun outer =>
      (cumLoop combine init ((List.range axisLen).map fun (j : Nat) =>
        mem (v.offset + (byteOffset outer (v.strides.eraseIdx axis) + j * st)))).zipIdx.map
          fun xj => (linearIndex (cumIndex v.shape.length axis outer xj.2) v.shape, xj.1)) blank⟩

/-- `cumulative_op` (bool, datetime, float16, int8) and `nan_cumulative_op` (with a `combine` that
skips NaN) along an axis, src/ops/array_methods/cumulative.rs:159-202, 460-507. -/
def cumulativeOp (combine : α → α → α) (init : α) (mem : Int → α) (v : View) (axis : Nat) (zero : α) : Arr α :=
  let size := sizeOf v.shape
  let axisLen := v.shape.getD axis 0
  let blank := List.replicate size zero
  if size = 0 then ⟨v.shape, []⟩
  else
    let os := v.shape.eraseIdx axis
    let outerShape := if os.isEmpty then [1] else os
    ⟨v.shape, writes ((odometer outerShape (size / axisLen) (List.replicate outerShape.length 0)).flatMap fun outer =>
      (cumLoop combine init ((List.range axisLen).map fun j =>
        mem (v.addr (argSlowIndex v.shape.length axis outer j)))).zipIdx.map
          fun xj => (linearIndex (argSlowIndex v.shape.length axis outer xj.2) v.shape, xj.1)) blank⟩

/-- The view of a freshly allocated result array. -/
def Arr.view (a : Arr α) (item : Nat) : View := View.fresh a.shape item

/-- The memory of a freshly allocated result array. -/
def Arr.mem (a : Arr α) (item : Nat) (zero : α) : Int → α := fun p => a.data.getD (p.toNat / item) zero

/-- `write_f64(read_f64(x) - read_f64(y))` on integers with range `lo..hi`,
src/ops/array_methods/cumulative.rs:73-76. -/
def subViaF64 (lo hi x y : Int) : Int := f64ToInt lo hi (intToF64 (intToF64 x - intToF64 y))

/-- One round of `diff`, src/ops/array_methods/cumulative.rs:83-129. `sub` is the subtraction of
the typed kernel (1-d contiguous), `subF` the one through `f64` (`diff_strided`, 59-80). -/
def diffStep (sub subF : α → α → α) (mem : Int → α) (v : View) (axis : Nat) (zero : α) : Arr α :=
  let newShape := v.shape.set axis (v.shape.getD axis 0 - 1)
  let outSize := sizeOf newShape
  let st := v.strides.getD axis 0
  if outSize = 0 then ⟨newShape, []⟩
  else if v.shape.length = 1 ∧ v.cFlag then
    ⟨newShape, (List.range outSize).map fun (i : Nat) =>
      sub (mem (v.offset + ((i + 1 : Nat) : Int) * v.item)) (mem (v.offset + (i : Int) * v.item))⟩
  else
    ⟨newShape, writes ((odometerAll newShape).zipIdx.map fun io =>
      (io.2, subF (mem (v.addr io.1 + st)) (mem (v.addr io.1)))) (List.replicate outSize zero)⟩

/-- `diff`, src/ops/array_methods/cumulative.rs:83-129 (the axis is in range: callers check). -/
def diff (sub subF : α → α → α) (zero : α) : Nat → (Int → α) → View → Nat → Arr α
  | 0, mem, v, _ => ⟨v.shape, v.addrs.map mem⟩
  | n + 1, mem, v, axis =>
    let axisLen := v.shape.getD axis 0
    if axisLen ≤ n + 1 then ⟨v.shape.set axis 0, []⟩
    else
      let r := diffStep sub subF mem v axis zero
      if sizeOf (v.shape.set axis (axisLen - 1)) = 0 then r
      else if n + 1 > 1 then diff sub subF zero n (r.mem v.item zero) (r.view v.item) axis else r

/-- The stores of `prepend_identity_typed` (general case) and `prepend_identity_fallback`,
src/ops/array_methods/cumulative.rs:302-345, 350-409: `c` is the cumulative result. -/
def prependStores (c : Arr α) (identity : α) (axis : Nat) (zero : α) : List (Nat × α) :=
  let axisLen := c.shape.getD axis 0
  let newShape := c.shape.set axis (axisLen + 1)
  let rs := cStrides newShape 1
  let cs := cStrides c.shape 1
  let outerShape := c.shape.eraseIdx axis
  (odometer outerShape (max (sizeOf outerShape) 1) (List.replicate outerShape.length 0)).flatMap fun outer =>
    let rb := byteOffset outer (rs.eraseIdx axis)
    let cb := byteOffset outer (cs.eraseIdx axis)
    (rb.toNat, identity) :: (List.range axisLen).map fun (j : Nat) =>
      ((rb + (j + 1) * rs.getD axis 0).toNat, c.data.getD (cb + j * cs.getD axis 0).toNat zero)

/-- `prepend_identity_typed`, src/ops/array_methods/cumulative.rs:265-347, on the freshly allocated
result of `cumsum`/`cumprod`. -/
def prependIdentity (c : Arr α) (identity : α) (axis : Nat) (zero : α) : Arr α :=
  let ndim := c.shape.length
  let axisLen := c.shape.getD axis 0
  let newShape := c.shape.set axis (axisLen + 1)
  let blank := List.replicate (sizeOf newShape) zero
  if axis = ndim - 1 then
    let outerSize := if ndim > 1 then sizeOf (c.shape.take (ndim - 1)) else 1
    ⟨newShape, writes ((List.range outerSize).flatMap fun i =>
      (i * (axisLen + 1), identity) :: (List.range axisLen).map fun j =>
        (i * (axisLen + 1) + 1 + j, c.data.getD (i * axisLen + j) zero)) blank⟩
  else ⟨newShape, writes (prependStores c identity axis zero) blank⟩

end Rumpy
