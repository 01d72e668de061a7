import Verif.Model.Array
/-!
# Model: copying an array (`copy` and same-dtype `astype`, src/array/mod.rs)
-/

namespace Rumpy
open Spec

/-- `std::ptr::copy_nonoverlapping(ptr, ptr.add(dst), n)`: the first `n` elements of the buffer
are copied to position `dst`. -/
def copyFront (d : List α) (dst n : Nat) : List α :=
  writes ((d.take n).zipIdx.map fun xj => (dst + xj.2, xj.1)) d

/-- `copy_broadcast_typed`, src/array/mod.rs:430-481.  Strides are divided by the element size and
pointers advance by whole elements. -/
def copyBroadcast (mem : Int → α) (v : View) (zero : α) : List α :=
  let size := sizeOf v.shape
  let blank := List.replicate size zero
  let n0 := v.shape.getD 0 0
  let n1 := v.shape.getD 1 0
  let s0 := v.strides.getD 0 0
  let s1 := v.strides.getD 1 0
  if size = 0 then blank
  else if v.shape.length = 2 ∧ s0 = 0 ∧ s1 ≠ 0 then
    let row := writes ((List.range n1).map fun (j : Nat) => (j, mem (v.offset + s1.tdiv v.item * j * v.item))) blank
    (List.range' 1 (n0 - 1)).foldl (fun d i => copyFront d (i * n1) n1) row
  else if v.shape.length = 2 ∧ s0 ≠ 0 ∧ s1 = 0 then
    writes ((List.range n0).flatMap fun (i : Nat) => (List.range n1).map fun j =>
      (i * n1 + j, mem (v.offset + s0.tdiv v.item * i * v.item))) blank
  else
    writes ((odometerAll v.shape).zipIdx.map fun io =>
      (io.2, mem (v.offset + (byteOffset io.1 v.strides).tdiv v.item * v.item))) blank

/-- `copy` and `astype` to the same dtype, src/array/mod.rs:349-427; `eight` says whether the dtype
is `float64` or `int64`. -/
def copyArr (eight : Bool) (mem : Int → α) (v : View) (zero : α) : Arr α :=
  let size := sizeOf v.shape
  if size = 0 then ⟨v.shape, []⟩
  else if v.cFlag then ⟨v.shape, (List.range size).map fun (i : Nat) => mem (v.offset + i * v.item)⟩
  else if eight then ⟨v.shape, copyBroadcast mem v zero⟩
  else ⟨v.shape, writes ((odometerAll v.shape).zipIdx.map fun io => (io.2, mem (v.addr io.1))) (List.replicate size zero)⟩

end Rumpy
