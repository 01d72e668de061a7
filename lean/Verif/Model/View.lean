import Verif.Model.Layout
/-!
# Model: arrays as views of a buffer, and the view operations

Models `RumpyArray` (src/array/mod.rs:24-37), `src/array/views.rs` and the view
operations of `src/ops/mod.rs` and `src/python/shape.rs`.

`None` is the Rust `None` or a panic, as said at each definition.  `usize` and
`isize` values are `Nat` and `Int`; the cast `start as usize` of a negative
`isize` followed by `+`/`*` in release mode is arithmetic modulo 2^64, for which
the plain `Int` computed here is the representative.
-/

namespace Rumpy

/-- `RumpyArray` without the element type: the data of a view, src/array/mod.rs:24-37.
The `WRITEABLE` flag is not represented. -/
structure View where
  offset : Int
  shape : List Nat
  strides : List Int
  item : Nat
  cFlag : Bool
  fFlag : Bool
deriving DecidableEq, Repr

namespace View

/-- `RumpyArray::zeros` and every constructor built on it, src/array/constructors.rs:12-26;
`ArrayFlags::default()` sets the C flag only, src/array/flags.rs:23-27. -/
def fresh (shape : List Nat) (item : Nat) : View :=
  { offset := 0, shape := shape, strides := cStrides shape item, item := item,
    cFlag := true, fFlag := false }

/-- `view_with`, src/array/views.rs:9-26. -/
def viewWith (v : View) (delta : Int) (shape : List Nat) (strides : List Int) : View :=
  { offset := v.offset + delta, shape := shape, strides := strides, item := v.item,
    cFlag := isCContiguous shape strides v.item, fFlag := isFContiguous shape strides v.item }

/-- `view_with_dtype`, src/array/views.rs:29-51. -/
def viewWithDtype (v : View) (shape : List Nat) (strides : List Int) (item : Nat) : View :=
  { offset := v.offset, shape := shape, strides := strides, item := item,
    cFlag := isCContiguous shape strides item, fFlag := isFContiguous shape strides item }

/-- Length of a slice, src/array/views.rs:58-69.  Rust's `/` truncates toward zero. -/
def sliceLen (start stop step : Int) : Nat :=
  (if step > 0 then
    if stop > start then Int.tdiv (stop - start + step - 1) step else 0
  else if start > stop then Int.tdiv (start - stop - step - 1) (-step)
  else 0).toNat

/-- `slice_axis`, src/array/views.rs:56-83.  `none` is the panic for `axis >= ndim` and
the division by zero for `step == 0` with `start > stop`. -/
def sliceAxis (v : View) (axis : Nat) (start stop step : Int) : Option View :=
  match v.strides[axis]?, v.shape[axis]? with
  | some oldStride, some _ =>
    if step = 0 ∧ start > stop then none
    else
      some (v.viewWith (start * (oldStride.natAbs : Int))
        (v.shape.set axis (sliceLen start stop step))
        (v.strides.set axis (oldStride * step)))
  | _, _ => none

/-- `reshape`, src/array/views.rs:87-104. -/
def reshape (v : View) (newShape : List Nat) : Option View :=
  if sizeOf v.shape ≠ sizeOf newShape then none
  else if !v.cFlag && !v.fFlag then none
  else
    let st := if v.cFlag then cStrides newShape v.item else fStrides newShape v.item
    some (v.viewWith 0 newShape st)

/-- `transpose`, src/array/views.rs:107-111. -/
def transpose (v : View) : View :=
  v.viewWith 0 v.shape.reverse v.strides.reverse

/-- `transpose_axes`, src/array/views.rs:114-123.  `none` is the failed assertion or the
out-of-range panic. -/
def transposeAxes (v : View) (axes : List Nat) : Option View :=
  if axes.length ≠ v.shape.length then none
  else do
    let sh ← axes.mapM fun a => v.shape[a]?
    let st ← axes.mapM fun a => v.strides[a]?
    some (v.viewWith 0 sh st)

/-- `flip`, src/array/views.rs:126-136. -/
def flip (v : View) (axis : Nat) : Option View :=
  match v.shape[axis]? with
  | none => none
  | some len =>
    if len = 0 then some v
    else v.sliceAxis axis ((len : Int) - 1) (-1) (-1)

/-- Loop of `broadcast_to` over the axes of the array, src/array/views.rs:149-161: one
new stride per axis. -/
def broadcastLoop : List Nat → List Int → List Nat → Option (List Int)
  | [], _, _ => some []
  | o :: os, st :: sts, n :: ns =>
    if o = n then (broadcastLoop os sts ns).map (st :: ·)
    else if o = 1 then (broadcastLoop os sts ns).map (0 :: ·)
    else none
  | _, _, _ => none

/-- `broadcast_to`, src/array/views.rs:140-165. -/
def broadcastTo (v : View) (newShape : List Nat) : Option View :=
  if newShape.length < v.shape.length then none
  else
    let pad := newShape.length - v.shape.length
    match broadcastLoop v.shape v.strides (newShape.drop pad) with
    | none => none
    | some st => some (v.viewWith 0 newShape (List.replicate pad 0 ++ st))

/-- `squeeze`, src/array/views.rs:169-185. -/
def squeeze (v : View) : View :=
  let sh := v.shape.filter (· ≠ 1)
  let st := ((v.shape.zip v.strides).filter (fun p => p.1 ≠ 1)).map (·.2)
  if sh.isEmpty && sizeOf v.shape == 1 then v.viewWith 0 [1] [(v.item : Int)]
  else v.viewWith 0 sh st

/-- `expand_dims`, src/array/views.rs:189-202. -/
def expandDims (v : View) (axis : Nat) : Option View :=
  if axis > v.shape.length then none
  else some (v.viewWith 0 (v.shape.insertIdx axis 1) (v.strides.insertIdx axis (v.item : Int)))

/-- `squeeze_axis`, src/array/views.rs:206-223 (both non-trivial branches build the same
view: when the shape becomes empty so do the strides). -/
def squeezeAxis (v : View) (axis : Nat) : View :=
  if v.shape[axis]? = some 1 then
    v.viewWith 0 (v.shape.eraseIdx axis) (v.strides.eraseIdx axis)
  else v

/-- Offset loop of `gufunc_subarray`, src/array/views.rs:236-243: runs over the loop
indices while axes remain. -/
def gufuncDelta : List Nat → List Nat → List Int → Int
  | i :: is, n :: ns, st :: sts => ((if n = 1 then 0 else i : Nat) : Int) * st + gufuncDelta is ns sts
  | _, _, _ => 0

/-- `gufunc_subarray`, src/array/views.rs:232-260.  The offset is clamped at 0. -/
def gufuncSubarray (v : View) (loopIdx : List Nat) (loopNdim : Nat) : View :=
  let my := min loopNdim v.shape.length
  let delta := max 0 (gufuncDelta loopIdx (v.shape.take my) (v.strides.take my))
  let sh := v.shape.drop my
  let st := v.strides.drop my
  if sh.isEmpty then v.viewWith delta [1] [(v.item : Int)] else v.viewWith delta sh st

/-- `diagonal`, src/ops/mod.rs:163-174.  `none` is the failed assertion. -/
def diagonal (v : View) : Option View :=
  match v.shape, v.strides with
  | n0 :: n1 :: _, s0 :: s1 :: _ => some (v.viewWith 0 [min n0 n1] [s0 + s1])
  | _, _ => none

/-- `Vec::swap` on the identity order, used by src/ops/mod.rs:193-194 and
src/python/shape.rs:904-905. -/
def swapOrder (ndim a b : Nat) : List Nat :=
  ((List.range ndim).set a b).set b a

/-- `swapaxes` for two different axes, src/ops/mod.rs:183-197.  For equal axes the code
returns a fresh copy, which is not a view. -/
def swapaxes (v : View) (a b : Nat) : Option View :=
  if a ≥ v.shape.length ∨ b ≥ v.shape.length then none
  else v.transposeAxes (swapOrder v.shape.length a b)

/-- Order built by `moveaxis` from normalised axes, src/python/shape.rs:150-158. -/
def moveaxisOrder (ndim : Nat) (src dst : List Nat) : List Nat :=
  (src.zip dst).foldl (fun order sd => order.insertIdx (min sd.2 order.length) sd.1)
    ((List.range ndim).filter fun x => !src.contains x)

/-- `moveaxis`, src/python/shape.rs:120-161, after normalising negative axes. -/
def moveaxis (v : View) (src dst : List Nat) : Option View :=
  if src.length ≠ dst.length then none
  else v.transposeAxes (moveaxisOrder v.shape.length src dst)

/-- Order built by `rollaxis`, src/python/shape.rs:166-186, for a normalised axis and a
non-negative `start` already clamped to `ndim`.  `none` is the error for a bad axis. -/
def rollaxisOrder (ndim axis start : Nat) : Option (List Nat) :=
  if axis ≥ ndim then none
  else
    let order := (List.range ndim).eraseIdx axis
    let pos := if axis < start then start - 1 else start
    some (order.insertIdx pos axis)

/-- `rollaxis`, src/python/shape.rs:166-186. -/
def rollaxis (v : View) (axis start : Nat) : Option View := do
  let order ← rollaxisOrder v.shape.length axis (min start v.shape.length)
  v.transposeAxes order

/-- `matrix_transpose`, src/python/shape.rs:895-908. -/
def matrixTranspose (v : View) : Option View :=
  if v.shape.length < 2 then none
  else v.transposeAxes (swapOrder v.shape.length (v.shape.length - 2) (v.shape.length - 1))

/-- The address of the element at a multi-index: `data_ptr` plus `byte_offset_for`,
src/array/mod.rs:81-83, 181-187. -/
def addr (v : View) (idx : List Nat) : Int := v.offset + byteOffset idx v.strides

/-- What a user sees of a view over a memory: `get_element` at every index,
src/array/mod.rs:144-152, with the element read at a byte address left abstract. -/
def denote (mem : Int → α) (v : View) : Spec.Nd α :=
  { shape := v.shape, get := fun idx => mem (v.addr idx) }

end View

/-- Loop of `broadcast_shapes` on shapes reversed (last axis first),
src/array/manipulation.rs:171-184; a missing axis counts as 1. -/
def broadcastShapesRev : List Nat → List Nat → Option (List Nat)
  | [], bs => some (bs.map fun b => if 1 = b then 1 else b)
  | a :: as, [] => (broadcastShapesRev as []).map ((if a = 1 then 1 else a) :: ·)
  | a :: as, b :: bs =>
    if a = b then (broadcastShapesRev as bs).map (a :: ·)
    else if a = 1 then (broadcastShapesRev as bs).map (b :: ·)
    else if b = 1 then (broadcastShapesRev as bs).map (a :: ·)
    else none

/-- `broadcast_shapes`, src/array/manipulation.rs:166-186. -/
def broadcastShapes (a b : List Nat) : Option (List Nat) :=
  (broadcastShapesRev a.reverse b.reverse).map List.reverse

/-- The Python-level `broadcast_shapes(*shapes)`, src/python/shape.rs:841-875: folds from
an empty result, which is also what an empty shape looks like. -/
def broadcastShapesMany (shapes : List (List Nat)) : Option (List Nat) :=
  shapes.foldlM (fun r s => if r.isEmpty then some s else broadcastShapes r s) []

/-- `resolve_reshape_shape`, src/python/pyarray/mod.rs:76-114: first loop.  Returns the
position of the `-1`, if any, and the product of the other dimensions; `none` is the
error. -/
def resolveLoop : List Int → Nat → Option Nat → Nat → Option (Option Nat × Nat)
  | [], _, neg, prod => some (neg, prod)
  | d :: ds, i, neg, prod =>
    if d < -1 then none
    else if d = -1 then
      if neg.isSome then none else resolveLoop ds (i + 1) (some i) prod
    else resolveLoop ds (i + 1) neg (prod * d.toNat)

/-- `resolve_reshape_shape`, src/python/pyarray/mod.rs:76-114.  The cast of the `-1` entry
to `usize` is overwritten, so its value does not matter. -/
def resolveReshape (shape : List Int) (size : Nat) : Option (List Nat) := do
  let (neg, prod) ← resolveLoop shape 0 none 1
  let result := shape.map Int.toNat
  match neg with
  | none => some result
  | some i =>
    if prod = 0 then none
    else if size % prod ≠ 0 then none
    else some (result.set i (size / prod))

/-- The method `reshape`, src/python/pyarray/mod.rs:318-326. -/
def View.pyReshape (v : View) (shape : List Int) : Option View := do
  let s ← resolveReshape shape (sizeOf v.shape)
  v.reshape s

/-- `normalize_index`, src/python/pyarray/mod.rs:982-988; the result is the `usize` cast,
kept as an integer. -/
def normalizeIndex (idx : Int) (len : Nat) : Int := if idx < 0 then (len : Int) + idx else idx

/-- A slice bound as `expand_ellipsis` stores it: `isize::MIN`/`isize::MAX` stand for an
omitted bound, src/python/pyarray/mod.rs:1110-1126.  A user's own `isize::MIN`/`MAX` is
not distinguished by the code; here it would be `some`. -/
abbrev SliceBound := Option Int

/-- `normalize_slice`, src/python/pyarray/mod.rs:1039-1055. -/
def normalizeSlice (start stop : SliceBound) (step len : Int) : Int × Int :=
  let ds := if step > 0 then 0 else len - 1
  let de := if step > 0 then len else -len - 1
  let start := start.getD ds
  let stop := stop.getD de
  let start := if start < 0 then max (start + len) 0 else min start len
  let stop := if stop < 0 then max (stop + len) (-1) else min stop len
  (start, stop)

/-- `IndexItem`, src/python/pyarray/mod.rs:1058-1063. -/
inductive IndexItem where
  | newAxis
  | int (i : Int)
  | slice (start stop : SliceBound) (step : Int)
deriving DecidableEq, Repr

/-- An item of a Python index tuple. -/
inductive PyItem where
  | ellipsis
  | newAxis
  | int (i : Int)
  | slice (start stop : SliceBound) (step : Int)
deriving DecidableEq, Repr

/-- First pass of `expand_ellipsis`, src/python/pyarray/mod.rs:1073-1087: number of
ellipses seen so far and number of axes named explicitly; `none` for a second ellipsis. -/
def countItems : List PyItem → Bool → Nat → Option (Bool × Nat)
  | [], e, n => some (e, n)
  | .ellipsis :: r, e, n => if e then none else countItems r true n
  | .newAxis :: r, e, n => countItems r e n
  | _ :: r, e, n => countItems r e (n + 1)

/-- Second pass of `expand_ellipsis`, src/python/pyarray/mod.rs:1102-1133. -/
def expandItems (fill : Nat) : List PyItem → List IndexItem
  | [] => []
  | .ellipsis :: r => List.replicate fill (.slice (some 0) none 1) ++ expandItems fill r
  | .newAxis :: r => .newAxis :: expandItems fill r
  | .int i :: r => .int i :: expandItems fill r
  | .slice a b c :: r => .slice a b c :: expandItems fill r

/-- `expand_ellipsis`, src/python/pyarray/mod.rs:1067-1136. -/
def expandEllipsis (items : List PyItem) (ndim : Nat) : Option (List IndexItem) := do
  let (e, n) ← countItems items false 0
  if e then
    if n > ndim then none else some (expandItems (ndim - n) items)
  else some (expandItems 0 items)

/-- Main loop of `__getitem__` for a tuple, src/python/pyarray/dunder_item.rs:116-148.
Carries the view, the axis and the axes to squeeze (most recent first). -/
def getItemLoop : List IndexItem → View → Nat → List Nat → Option (View × List Nat)
  | [], v, _, sq => some (v, sq)
  | .newAxis :: r, v, axis, sq => do
    let v' ← v.expandDims axis
    getItemLoop r v' (axis + 1) sq
  | .int i :: r, v, axis, sq => do
    let len ← v.shape[axis]?
    let k := normalizeIndex i len
    let v' ← v.sliceAxis axis k (k + 1) 1
    getItemLoop r v' (axis + 1) (axis :: sq)
  | .slice a b c :: r, v, axis, sq => do
    let len ← v.shape[axis]?
    let (s, e) := normalizeSlice a b c len
    let v' ← v.sliceAxis axis s e c
    getItemLoop r v' (axis + 1) sq

/-- `__getitem__` with a tuple of items, general path,
src/python/pyarray/dunder_item.rs:85-156. -/
def View.getItem (v : View) (items : List PyItem) : Option View := do
  let items ← expandEllipsis items v.shape.length
  let (v', sq) ← getItemLoop items v 0 []
  some (sq.foldl View.squeezeAxis v')

/-- `__getitem__` with as many integers as axes, src/python/pyarray/dunder_item.rs:91-108:
the address `get_element` (src/array/mod.rs) reads; `none` is its failed bounds assertion.
A negative normalised index is a huge `usize`, so it fails the assertion. -/
def View.getScalar (v : View) (idx : List Int) : Option Int :=
  let ks := List.zipWith normalizeIndex idx v.shape
  if idx.length = v.shape.length ∧ (List.zipWith (fun (k : Int) (n : Nat) => decide (0 ≤ k ∧ k < n)) ks v.shape).all id
  then some (v.addr (ks.map Int.toNat)) else none

/-- `__getitem__` with one integer, src/python/pyarray/dunder_item.rs:157-162. -/
def View.getInt (v : View) (i : Int) : Option View := do
  let len ← v.shape[0]?
  let k := normalizeIndex i len
  let v' ← v.sliceAxis 0 k (k + 1) 1
  some (v'.squeezeAxis 0)

/-- `__getitem__` with one slice, src/python/pyarray/dunder_item.rs:165-169; the bounds come
from CPython's `slice.indices`, modelled by `start` and `stop` parameters. -/
def View.getSlice (v : View) (start stop step : Int) : Option View := do
  let _ ← v.shape[0]?
  v.sliceAxis 0 start stop step

end Rumpy
