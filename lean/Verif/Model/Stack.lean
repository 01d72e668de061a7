import Verif.Spec.Stack
import Verif.Model.Rearrange
import Verif.Model.Concat
import Verif.Model.Alloc
/-!
# Model: atleast_1d, atleast_2d, atleast_3d, vstack, hstack, column_stack, dstack, hsplit, vsplit, dsplit, broadcast_arrays,
expand_dims, flip and reshape as functions (src/python/shape.rs)

The items of a list are arrays already (`to_rumpy_array`, src/python/shape.rs:10-30, of an array is that array).
-/

namespace Rumpy
open Spec

/-- `atleast_1d`, src/python/shape.rs:194-200. -/
def atleast1d (v : View) : View :=
  if v.shape.length = 0 then (v.reshape [1]).getD v else v

/-- `atleast_2d`, src/python/shape.rs:204-210. -/
def atleast2d (v : View) : View :=
  if v.shape.length = 0 then (v.reshape [1, 1]).getD v
  else if v.shape.length = 1 then (v.reshape [1, sizeOf v.shape]).getD v
  else v

/-- `atleast_3d`, src/python/shape.rs:214-227. -/
def atleast3d (v : View) : View :=
  if v.shape.length = 0 then (v.reshape [1, 1, 1]).getD v
  else if v.shape.length = 1 then (v.reshape [1, sizeOf v.shape, 1]).getD v
  else if v.shape.length = 2 then (v.reshape [v.shape.getD 0 0, v.shape.getD 1 0, 1]).getD v
  else v

/-- One item of `vstack`, src/python/shape.rs:409-413. -/
def vstackItem (v : View) : View :=
  if v.shape.length = 1 then (v.reshape [1, sizeOf v.shape]).getD v else v

/-- `vstack`, src/python/shape.rs:400-421. -/
def vstack (zero : α) (arrs : List (Held α)) : Option (Arr α) :=
  if arrs.isEmpty then none
  else concatenate zero (arrs.map fun h => (vstackItem h.view).denote h.mem) 0

/-- `hstack`, src/python/shape.rs:425-443. -/
def hstack (zero : α) (arrs : List (Held α)) : Option (Arr α) :=
  match arrs with
  | [] => none
  | first :: rest =>
    concatenate zero ((first :: rest).map Held.nd) (if first.view.shape.length = 1 then 0 else 1)

/-- One item of `column_stack`, src/python/shape.rs:456-460. -/
def columnItem (v : View) : View :=
  if v.shape.length = 1 then (v.reshape [sizeOf v.shape, 1]).getD v else v

/-- `column_stack`, src/python/shape.rs:447-469. -/
def columnStack (zero : α) (arrs : List (Held α)) : Option (Arr α) :=
  if arrs.isEmpty then none
  else concatenate zero (arrs.map fun h => (columnItem h.view).denote h.mem) 1

/-- One item of `dstack`, src/python/shape.rs:497-507. -/
def dstackItem (v : View) : View :=
  if v.shape.length = 1 then (v.reshape [1, sizeOf v.shape, 1]).getD v
  else if v.shape.length = 2 then (v.reshape [v.shape.getD 0 0, v.shape.getD 1 0, 1]).getD v
  else v

/-- `dstack`, src/python/shape.rs:488-516. -/
def dstack (zero : α) (arrs : List (Held α)) : Option (Arr α) :=
  if arrs.isEmpty then none
  else concatenate zero (arrs.map fun h => (dstackItem h.view).denote h.mem) 2

/-- `hsplit`, src/python/shape.rs:548-555. -/
def hsplit (v : View) (sections : Nat) : Option (List View) :=
  split v sections (if v.shape.length = 1 then 0 else 1)

/-- `vsplit`, src/python/shape.rs:559-570. -/
def vsplit (v : View) (sections : Nat) : Option (List View) :=
  if v.shape.length < 2 then none else split v sections 0

/-- `dsplit`, src/python/shape.rs:574-585. -/
def dsplit (v : View) (sections : Nat) : Option (List View) :=
  if v.shape.length < 3 then none else split v sections 2

/-- The common shape found by `broadcast_arrays`, src/python/shape.rs:283-289. -/
def commonShape (first : List Nat) (rest : List (List Nat)) : Option (List Nat) :=
  rest.foldlM broadcastShapes first

/-- `broadcast_arrays`, src/python/shape.rs:271-301. -/
def broadcastArrays (vs : List View) : Option (List View) :=
  match vs with
  | [] => some []
  | first :: rest =>
    (commonShape first.shape (rest.map View.shape)).bind fun t => (first :: rest).mapM fun v => v.broadcastTo t

/-- The function `expand_dims`, src/python/shape.rs:231-247: a negative axis counts from the end of the result. A sum that
stays negative is a number above every rank after the cast. -/
def expandDimsFn (v : View) (axis : Int) : Option View :=
  let axis := if axis < 0 then (v.shape.length : Int) + axis + 1 else axis
  if axis < 0 then none else v.expandDims axis.toNat

/-- The function `flip` with an axis, src/python/shape.rs:320-335. The cast is as in `expandDimsFn`. -/
def flipFn (v : View) (axis : Int) : Option View :=
  let axis := if axis < 0 then (v.shape.length : Int) + axis else axis
  if axis < 0 then none else v.flip axis.toNat

/-- A `usize` cast of an `isize`. -/
def castU (d : Int) : Nat := (d % 2 ^ 64).toNat

/-- The product of the given lengths, an `isize`, src/python/shape.rs:62. -/
def productI (checked : Bool) : Int → List Int → Option Int
  | acc, [] => some acc
  | acc, d :: ds => (mulI checked acc d).bind fun acc => productI checked acc ds

/-- The shape found by the function `reshape`, src/python/shape.rs:53-74, for an array of `total` elements. -/
def reshapeFnShape (checked : Bool) (total : Nat) (dims : List Int) : Outcome (List Nat) :=
  if 1 < dims.count (-1) then .error
  else if dims.count (-1) = 1 then
    match productI checked 1 (dims.filter (· ≠ -1)) with
    | none => .panic
    | some known =>
      if known ≤ 0 ∨ total % known.toNat ≠ 0 then .error
      else .ok (dims.map fun d => if d = -1 then total / known.toNat else castU d)
  else .ok (dims.map castU)

/-- The function `reshape` of a C-contiguous array, src/python/shape.rs:38-81 with src/array/views.rs:87-104. `dims` fit
`isize`; the strides are computed without overflow here. -/
def reshapeFn (checked : Bool) (v : View) (dims : List Int) : Outcome View :=
  match reshapeFnShape checked (sizeOf v.shape) dims with
  | .error => .error
  | .panic => .panic
  | .ok shape =>
    match productU checked 1 shape with
    | none => .panic
    | some n => if sizeOf v.shape ≠ n then .error else .ok (v.viewWith 0 shape (cStrides shape v.item))

end Rumpy
