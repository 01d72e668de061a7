import Verif.Model.Rearrange
import Verif.Model.Layout
/-!
# Model: applying Python functions to arrays (src/python/functional.rs)

A Python function is a Lean function; `none` is an exception.  Its calls are made in the order of
the lists here, so a function with a state would see the arguments in this order.  `rd` is the
conversion of an element to `f64` and `wr` the conversion back to the dtype of the array.
-/

namespace Rumpy
open Spec

/-- `RumpyArray::reshape` of a fresh array: same elements, new shape. -/
def Arr.reshapeTo (a : Arr α) (shape : List Nat) : Option (Arr α) :=
  if sizeOf shape = a.data.length then some ⟨shape, a.data⟩ else none

/-- The base offset in `get_slice_along_axis`, src/array/mod.rs:204-212; the indices of the other
axes are used up one by one. -/
def sliceBase (axis : Nat) : (dim : Nat) → List Int → List Nat → Int
  | _, [], _ => 0
  | dim, st :: sts, other =>
    if dim = axis then sliceBase axis (dim + 1) sts other
    else (other.headD 0 : Int) * st + sliceBase axis (dim + 1) sts other.tail

/-- `get_slice_along_axis`, src/array/mod.rs:196-223. -/
def sliceAlongAxis (rd : α → K) (mem : Int → α) (v : View) (axis : Nat) (other : List Nat) : List K :=
  let base := sliceBase axis 0 v.strides other
  (List.range (v.shape.getD axis 0)).map fun (j : Nat) => rd (mem (v.offset + (base + (j : Int) * v.strides.getD axis 0)))

/-- What a Python function gives back: a number, or an array (also one made by `asarray` from a list
or a NumPy array). -/
inductive Ret (K : Type u)
  | num (x : K)
  | arr (a : Arr K)
deriving DecidableEq

def Ret.num? : Ret K → Option K
  | .num x => some x
  | .arr _ => none

def Ret.arr? : Ret K → Option (Arr K)
  | .num _ => none
  | .arr a => some a

/-- The result of `apply_along_axis` is assembled according to the first return value,
src/python/functional.rs:98-158. -/
def assemble (wr : K → α) (outShape : List Nat) : List (Ret K) → Option (Arr α)
  | [] => none
  | .num x :: results => do
    let data ← (Ret.num x :: results).mapM Ret.num?
    Arr.reshapeTo ⟨[data.length], data.map wr⟩ outShape
  | .arr a :: results => do
    let parts ← (Ret.arr a :: results).mapM Ret.arr?
    let data := parts.flatMap Arr.data
    Arr.reshapeTo ⟨[data.length], data.map wr⟩ (outShape ++ a.shape)

/-- `apply_along_axis`, src/python/functional.rs:27-159. -/
def applyAlongAxis (rd : α → K) (wr : K → α) (f : List α → Option (Ret K)) (mem : Int → α) (v : View) (axis : Int) :
    Option (Arr α) :=
  let ndim := v.shape.length
  let ax := if axis < 0 then (ndim : Int) + axis else axis
  if ax < 0 ∨ (ndim : Int) ≤ ax then none
  else
    let outShape := v.shape.eraseIdx ax.toNat
    if sizeOf outShape = 0 then some ⟨outShape, []⟩
    else do
      let results ← (odometerAll outShape).mapM fun idx => f ((sliceAlongAxis rd mem v ax.toNat idx).map wr)
      assemble wr outShape results

/-- The loop that puts axes of length 1 back, src/python/functional.rs:204-212; `fuel` is the number
of missing axes. -/
def restoreAxes (axis : Nat) : (fuel : Nat) → List Nat → List Nat
  | 0, s => s
  | fuel + 1, s => restoreAxes axis fuel (if axis < s.length then s.insertIdx axis 1 else s ++ [1])

/-- The result of one call with all axes, src/python/functional.rs:200-219. -/
def keepAxes (ndim axis : Nat) (r : Arr α) : Option (Arr α) :=
  if r.shape.length ≠ ndim then Arr.reshapeTo r (restoreAxes axis (ndim - r.shape.length) r.shape) else some r

/-- `apply_over_axes`, src/python/functional.rs:167-244; `f a k` is the call `func(a, k)`. -/
def applyOverAxes (f : Arr α → Nat → Option (Arr α)) (ndim : Nat) : List Int → Arr α → Option (Arr α)
  | [], cur => some cur
  | axis :: axes, cur =>
    let ax := if axis < 0 then (ndim : Int) + axis else axis
    if ax < 0 ∨ (ndim : Int) ≤ ax then none
    else do
      let r ← f cur ax.toNat
      let next ← keepAxes ndim ax.toNat r
      applyOverAxes f ndim axes next

/-- `flat_to_indices`, src/python/functional.rs:11-19: from the last axis; gives the indices and what
is left over. -/
def flatToIndicesAux : List Nat → Nat → List Nat × Nat
  | [], flat => ([], flat)
  | n :: s, flat =>
    let (idx, rem) := flatToIndicesAux s flat
    (rem % n :: idx, rem / n)

def flatToIndices (flat : Nat) (shape : List Nat) : List Nat := (flatToIndicesAux shape flat).1

/-- The inner loop of `broadcast_shapes`, src/python/functional.rs:694-703, on the axes from
`offset` on. -/
def bcastLoop : List Nat → List Nat → Option (List Nat)
  | r :: result, dim :: shape =>
    if r = 1 then (bcastLoop result shape).map (dim :: ·)
    else if dim ≠ 1 ∧ dim ≠ r then none
    else (bcastLoop result shape).map (r :: ·)
  | result, _ => some result

/-- `broadcast_shapes`, src/python/functional.rs:684-707. -/
def bcastShapes (shapes : List (List Nat)) : Option (List Nat) :=
  if shapes.isEmpty then some []
  else
    let maxNdim := (shapes.map List.length).foldr max 0
    shapes.foldlM (fun result shape =>
      let offset := maxNdim - shape.length
      (bcastLoop (result.drop offset) shape).map (result.take offset ++ ·)) (List.replicate maxNdim 1)

/-- An argument of a call: an array whose elements are read as Python numbers, or another object. -/
inductive CallArg (V : Type u)
  | arr (h : Held V)
  | obj (x : V)

def CallArg.arr? : CallArg V → Option (Held V)
  | .arr h => some h
  | .obj _ => none

/-- The arguments that are not arrays, with their positions, src/python/functional.rs:320-337. -/
def objsFrom : (pos : Nat) → List (CallArg V) → List (Nat × V)
  | _, [] => []
  | pos, .arr _ :: args => objsFrom (pos + 1) args
  | pos, .obj x :: args => (pos, x) :: objsFrom (pos + 1) args

/-- The arguments of one call, src/python/functional.rs:361-379: position by position from the two
lists. -/
def mergeArgs : (pos : Nat) → (fuel : Nat) → List (Nat × V) → List V → List V
  | _, 0, _, _ => []
  | pos, fuel + 1, (p, x) :: objs, vals =>
    if p = pos then x :: mergeArgs (pos + 1) fuel objs vals
    else match vals with
      | y :: vals => y :: mergeArgs (pos + 1) fuel ((p, x) :: objs) vals
      | [] => mergeArgs (pos + 1) fuel ((p, x) :: objs) []
  | pos, fuel + 1, [], y :: vals => y :: mergeArgs (pos + 1) fuel [] vals
  | pos, fuel + 1, [], [] => mergeArgs (pos + 1) fuel [] []

/-- What a call gives: the value of the Python function itself, or arrays. -/
inductive CallRet (K : Type u) (A : Type v)
  | value (x : K)
  | arrays (a : A)
deriving DecidableEq

/-- `vectorize.__call__` without a signature, src/python/functional.rs:308-404; `f` gives the number
the Python function returned. -/
def vectorizeCall (wr : K → α) (f : List V → Option K) (args : List (CallArg V)) : Option (CallRet K (Arr α)) :=
  let arrays := args.filterMap CallArg.arr?
  let objs := objsFrom 0 args
  if arrays.isEmpty then (f (objs.map Prod.snd)).map .value
  else do
    let shape ← bcastShapes (arrays.map fun h => h.view.shape)
    let views ← arrays.mapM fun h => (h.view.broadcastTo shape).map fun w => Held.mk h.mem w
    let results ← (List.range (sizeOf shape)).mapM fun i =>
      let idx := flatToIndices i shape
      f (mergeArgs 0 args.length objs (views.map fun h => h.mem (h.view.addr idx)))
    let out ← Arr.reshapeTo ⟨[results.length], results.map wr⟩ shape
    some (.arrays out)

/-- An argument of `frompyfunc` after `broadcast_to`, src/python/functional.rs:591-599.  If the
broadcast failed, the function would be given the array itself, which is not a value of the model. -/
def CallArg.spread (shape : List Nat) : CallArg V → Option (CallArg V)
  | .arr h => (h.view.broadcastTo shape).map fun w => .arr ⟨h.mem, w⟩
  | .obj x => some (.obj x)

/-- The value of an argument at an index, src/python/functional.rs:608-616. -/
def CallArg.read (idx : List Nat) : CallArg V → V
  | .arr h => h.mem (h.view.addr idx)
  | .obj x => x

/-- One output of `frompyfunc`, src/python/functional.rs:635-658.  Only the shape of a list with two or
more axes is kept. -/
def pyOutput (shape : List Nat) (data : List R) : Option (Arr R) :=
  if 1 < shape.length then Arr.reshapeTo ⟨[data.length], data⟩ shape else some ⟨[data.length], data⟩

/-- `frompyfunc.__call__`, src/python/functional.rs:541-661.  `f` gives the tuple of results, one for each
output; without arrays the result of the function itself is returned. -/
def frompyfuncCall (nin nout : Nat) (f : List V → Option (List R)) (args : List (CallArg V)) :
    Option (CallRet (List R) (List (Arr R))) :=
  if args.length ≠ nin then none
  else
    let arrays := args.filterMap CallArg.arr?
    if arrays.isEmpty then (f (args.map (CallArg.read []))).map .value
    else do
      let shape ← bcastShapes (arrays.map fun h => h.view.shape)
      let spread ← args.mapM (CallArg.spread shape)
      let results ← (List.range (sizeOf shape)).mapM fun i => f (spread.map (CallArg.read (flatToIndices i shape)))
      let outs ← (List.range nout).mapM fun k => pyOutput shape (results.filterMap (·[k]?))
      some (.arrays outs)

/-- The argument of one call in `call_with_signature`, src/python/functional.rs:479-489: the whole array
when there are no loop axes.  Too few loop indices are a panic. -/
def coreSlice (rd : α → K) (wr : K → α) (other : List Nat) (h : Held α) : Option (List α) :=
  let lastAxis := h.view.shape.length - 1
  if other.isEmpty then some ((h.view.addrs.map h.mem).map fun x => wr (rd x))
  else if h.view.shape.length = 0 ∨ other.length < h.view.shape.length - 1 then none
  else some ((sliceAlongAxis rd h.mem h.view lastAxis other).map wr)

/-- `call_with_signature` with the output `()`, src/python/functional.rs:408-518.  `none` is an exception
or a panic: `flat_to_indices` divides by zero when a loop axis is empty. -/
def vectorizeSig (rd : α → K) (wr : K → α) (wrOut : K → β) (f : List (List α) → Option K) (args : List (Held α)) :
    Option (CallRet K (Arr β)) :=
  match args with
  | [] => (f []).map .value
  | first :: _ =>
    let outShape := first.view.shape.dropLast
    let outSize := max (sizeOf outShape) 1
    if 0 ∈ outShape then none
    else do
      let results ← (List.range outSize).mapM fun i => do
        let slices ← args.mapM (coreSlice rd wr (flatToIndices i outShape))
        f slices
      if outShape.isEmpty then (results.head?).map .value
      else do
        let out ← Arr.reshapeTo ⟨[results.length], results.map wrOut⟩ outShape
        some (.arrays out)

end Rumpy
