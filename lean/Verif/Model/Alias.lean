import Verif.Model.Copy
import Verif.Model.Cumulative
import Verif.Model.Elementwise
import Verif.Model.Search
import Verif.Spec.View
/-!
# Model: arrays that share a buffer, writing through them, and temporary elision

A `RumpyArray` is an `Arc<ArrayBuffer>` and a view of it; cloning one clones the `Arc`
(`#[derive(Clone)]`, src/array/mod.rs:23-37).  Here buffers are numbered, and a buffer's
contents are a function from byte address to the element stored there, as elsewhere in the
model.  A buffer that is no longer referenced is not removed: nothing can read it any more.

The reference count of a Python object is not part of the state.  It is a parameter of the
operations that look at it, so the theorems hold for every value.
-/

namespace Rumpy

/-- `RumpyArray`, src/array/mod.rs:23-37: the buffer (by number) and the view. -/
structure Handle where
  buf : Nat
  view : View
deriving DecidableEq, Repr

/-- All buffers with their contents, and the arrays held by Python objects (`None` for one
that was freed).  `PyRumpyArray` holds one `RumpyArray`, src/python/pyarray/mod.rs. -/
structure Heap (α : Type u) where
  mems : List (Int → α)
  vars : List (Option Handle)

namespace Heap

/-- The array of a Python object. -/
def var? (h : Heap α) (k : Nat) : Option Handle := (h.vars[k]?).join

/-- `Arc::strong_count`: every Python object and every local variable that holds the buffer. -/
def strong (h : Heap α) (locals : List Handle) (b : Nat) : Nat :=
  (h.vars.filterMap id ++ locals).countP fun a => a.buf == b

/-- A new Python object for an array. -/
def push (h : Heap α) (a : Handle) : Heap α := { h with vars := h.vars ++ [some a] }

/-- A new buffer for a result, `RumpyArray::zeros` followed by its stores,
src/array/constructors.rs:12-26. -/
def alloc (h : Heap α) (r : Arr α) (item : Nat) (zero : α) : Heap α × Handle :=
  ({ h with mems := h.mems ++ [r.mem item zero] }, ⟨h.mems.length, r.view item⟩)

end Heap

/-- The assertions of `get_element` and `set_element`, src/array/mod.rs:145-148, 168-171. -/
def indexOk (idx shape : List Nat) : Bool :=
  idx.length == shape.length && (List.zipWith (fun i n => decide (i < n)) idx shape).all id

namespace Heap

/-- `get_element`, src/array/mod.rs:144-152; `none` is the failed assertion.  The value is
read as `f64` in the code; see DESIGN.md for what that loses. -/
def getElement (h : Heap α) (a : Handle) (idx : List Nat) : Option α :=
  if indexOk idx a.view.shape then (h.mems[a.buf]?).map fun m => m (a.view.addr idx) else none

/-- `set_element`, src/array/mod.rs:167-178; `none` is the failed assertion. -/
def setElement (h : Heap α) (a : Handle) (idx : List Nat) (x : α) : Option (Heap α) :=
  if indexOk idx a.view.shape then
    some { h with mems := h.mems.modify a.buf fun m => Rumpy.setElement m a.view idx x }
  else none

/-- `fill_view` with a scalar, src/python/pyarray/mod.rs:1146-1154. -/
def fillScalar (h : Heap α) (a : Handle) (x : α) : Option (Heap α) :=
  (odometerAll a.view.shape).foldlM (fun h i => h.setElement a i x) h

/-- `fill_view` with an array, src/python/pyarray/mod.rs:1155-1169; `none` is the shape error.
Each element is read when it is its turn to be stored. -/
def fillArray (h : Heap α) (a src : Handle) : Option (Heap α) :=
  if a.view.shape ≠ src.view.shape then none
  else (odometerAll a.view.shape).foldlM (fun h i => do
    let x ← h.getElement src i
    h.setElement a i x) h

/-- The method `fill`, src/python/pyarray/mod.rs:591-623.  Both contiguous paths store at
`data_ptr` plus `i` elements. -/
def fill (h : Heap α) (a : Handle) (x : α) : Option (Heap α) :=
  let size := sizeOf a.view.shape
  if size = 0 then some h
  else if a.view.cFlag then
    some { h with mems := h.mems.modify a.buf fun m =>
      (List.range size).foldl (fun m k => fun p =>
        if p = a.view.offset + ((k * a.view.item : Nat) : Int) then x else m p) m }
  else (odometerAll a.view.shape).foldlM (fun h i => h.setElement a i x) h

/-- `copy`, src/array/mod.rs:349-351: a new array; `eight` says whether the dtype is `float64`
or `int64` (see `copyArr`). -/
def copy (eight : Bool) (h : Heap α) (a : Handle) (zero : α) : Option (Heap α × Handle) := do
  let m ← h.mems[a.buf]?
  some (h.alloc (copyArr eight m a.view zero) a.view.item zero)

/-! ### Temporary elision -/

/-- `can_reuse_for_output`, src/array/mod.rs:104-110. -/
def canReuse (h : Heap α) (a : Handle) (shape : List Nat) (sameDtype : Bool) : Bool :=
  a.view.shape == shape && sameDtype && a.view.cFlag && a.view.offset == 0 && h.strong [] a.buf == 1

/-- `try_elision_candidate`, src/python/pyarray/mod.rs:1180-1206, with
`ELISION_SIZE_THRESHOLD` of line 22. -/
def tryElision (h : Heap α) (refcnt : Int) (a : Handle) (shape : List Nat) (sameDtype : Bool) : Option Handle :=
  if refcnt > 2 then none
  else if sizeOf a.view.shape < 32768 then none
  else if !h.canReuse a shape sameDtype then none
  else some a

/-- The in-place loop of `map_binary_op_inplace` when the buffer given as `out` is used,
src/ops/ufunc.rs:310-329: operands are read from memory as it is at that moment, the result
goes to element `i` of the buffer. -/
def inplaceLoop (f : α → α → α) (a' b' o : Handle) (h : Heap α) : Option (Heap α) :=
  (odometerAll o.view.shape).zipIdx.foldlM (fun h io => do
    let ma ← h.mems[a'.buf]?
    let mb ← h.mems[b'.buf]?
    some { h with mems := h.mems.modify o.buf fun m => fun p =>
      if p = ((io.2 * o.view.item : Nat) : Int) then f (ma (a'.view.addr io.1)) (mb (b'.view.addr io.1)) else m p }) h

/-- `map_binary_op_inplace`, src/ops/ufunc.rs:177-461, without the conversions for integer
division and the datetime cases.  At `Arc::get_mut` (line 297) the buffer is held by the Python
objects, by `out` and by the two broadcast views.  `typed` says whether the kernel dispatch, which
is tried only when there is no `out` (line 264), accepts the dtypes; `item` is the result's
element size. -/
def mapBinaryInplace (typed : Bool) (f : α → α → α) (h : Heap α) (a b : Handle) (out : Option Handle)
    (item : Nat) (zero : α) : Option (Heap α × Handle) := do
  let shape ← broadcastShapes a.view.shape b.view.shape
  let a' ← a.view.broadcastTo shape
  let b' ← b.view.broadcastTo shape
  let ma ← h.mems[a.buf]?
  let mb ← h.mems[b.buf]?
  match out with
  | none =>
    some (h.alloc (if typed then mapBinary f ma mb a' b' shape zero
      else mapBinaryFallback f ma mb a' b' shape zero) item zero)
  | some o =>
    if h.strong [o, ⟨a.buf, a'⟩, ⟨b.buf, b'⟩] o.buf = 1 then
      (inplaceLoop f ⟨a.buf, a'⟩ ⟨b.buf, b'⟩ o h).map fun h => (h, o)
    else some (h.alloc (mapBinaryFallback f ma mb a' b' shape zero) item zero)

/-- `binary_op_dispatch_with_elision` with an array operand,
src/python/pyarray/mod.rs:1210-1239. -/
def binaryElided (typed sameDtype : Bool) (f : α → α → α) (h : Heap α) (refcnt : Int) (a b : Handle)
    (item : Nat) (zero : α) : Option (Heap α × Handle) := do
  let shape ← broadcastShapes a.view.shape b.view.shape
  mapBinaryInplace typed f h a b (h.tryElision refcnt a shape sameDtype) item zero

/-! ### Functions that hand out or replace an array -/

/-- `array(a)` and `asarray(a)` of an array, without a dtype or with its own,
src/python/creation.rs:315-324: a clone, which shares the buffer. -/
def pyArray (h : Heap α) (a : Handle) : Heap α × Handle := (h, a)

/-- `dispatch_round` of an integer array with `decimals >= 0`, src/ops/dispatch.rs:1531-1537: a
clone, which shares the buffer. -/
def roundInteger (h : Heap α) (a : Handle) : Heap α × Handle := (h, a)

/-- The methods `sort` (src/python/pyarray/mod.rs:489-492) and `resize` (799-834), which put a new
array in the Python object; `r` is the sorted or resized array. -/
def replaceVar (h : Heap α) (k : Nat) (r : Arr α) (item : Nat) (zero : α) : Heap α :=
  let hr := h.alloc r item zero
  { hr.1 with vars := hr.1.vars.set k (some hr.2) }

end Heap

/-! ### Item assignment -/

/-- An item of the key of `__setitem__`.  Other items are a type error. -/
inductive SetKey where
  | int (i : Int)
  | slice (start stop : SliceBound) (step : Int)
deriving DecidableEq, Repr

/-- The loop of `__setitem__` over a tuple, src/python/pyarray/dunder_item.rs:213-232.  The bounds
of a slice come from CPython's `slice.indices` (`extract_slice_indices`,
src/python/pyarray/mod.rs:973-979), which is the language's own rule; a zero step is its error. -/
def setItemLoop : List SetKey → View → Nat → Option View
  | [], v, _ => some v
  | .int i :: r, v, axis => do
    let len ← v.shape[axis]?
    let k := normalizeIndex i len
    let v' ← v.sliceAxis axis k (k + 1) 1
    setItemLoop r v' (axis + 1)
  | .slice a b c :: r, v, axis => do
    let len ← v.shape[axis]?
    if c = 0 then none
    else
      let v' ← v.sliceAxis axis (Spec.sliceStart len a c) (Spec.sliceStop len b c) c
      setItemLoop r v' (axis + 1)

/-- The integers of a key that has nothing else. -/
def allInts : List SetKey → Option (List Int)
  | [] => some []
  | .int i :: r => (allInts r).map (i :: ·)
  | .slice _ _ _ :: _ => none

/-- The view that a tuple key is assigned to, or one element of it:
src/python/pyarray/dunder_item.rs:184-232.  A negative normalised index is a huge `usize`, so it
fails the assertion of `set_element`; it is mapped to the length, which fails it too. -/
def setTarget (v : View) (key : List SetKey) : Option (View ⊕ List Nat) :=
  match allInts key with
  | some is =>
    if is.length = v.shape.length then
      some (.inr (List.zipWith (fun i n => let k := normalizeIndex i n
        if k < 0 then n else k.toNat) is v.shape))
    else (setItemLoop key v 0).map .inl
  | none => (setItemLoop key v 0).map .inl

namespace Heap

/-- `__setitem__` with a tuple and a number, src/python/pyarray/dunder_item.rs:184-235. -/
def setItemScalar (h : Heap α) (a : Handle) (key : List SetKey) (x : α) : Option (Heap α) := do
  match ← setTarget a.view key with
  | .inl w => h.fillScalar ⟨a.buf, w⟩ x
  | .inr idx => h.setElement a idx x

/-- `__setitem__` with a tuple and an array, src/python/pyarray/dunder_item.rs:184-235; an array
for one element is an error. -/
def setItemArray (h : Heap α) (a : Handle) (key : List SetKey) (src : Handle) : Option (Heap α) := do
  match ← setTarget a.view key with
  | .inl w => h.fillArray ⟨a.buf, w⟩ src
  | .inr _ => none

/-- `__setitem__` with one integer and a number, src/python/pyarray/dunder_item.rs:238-256; a 0-d
array panics at `shape()[0]`. -/
def setIntScalar (h : Heap α) (a : Handle) (i : Int) (x : α) : Option (Heap α) := do
  let len ← a.view.shape[0]?
  let k := normalizeIndex i len
  if a.view.shape.length = 1 then h.setElement a [if k < 0 then len else k.toNat] x
  else
    let w ← a.view.sliceAxis 0 k (k + 1) 1
    h.fillScalar ⟨a.buf, w⟩ x

/-- `__setitem__` with one integer and an array, src/python/pyarray/dunder_item.rs:238-256. -/
def setIntArray (h : Heap α) (a : Handle) (i : Int) (src : Handle) : Option (Heap α) := do
  let len ← a.view.shape[0]?
  let k := normalizeIndex i len
  if a.view.shape.length = 1 then none
  else
    let w ← a.view.sliceAxis 0 k (k + 1) 1
    h.fillArray ⟨a.buf, w⟩ src

/-- `__setitem__` with one slice and a number, src/python/pyarray/dunder_item.rs:259-263. -/
def setSliceScalar (h : Heap α) (a : Handle) (i j : SliceBound) (step : Int) (x : α) : Option (Heap α) := do
  let len ← a.view.shape[0]?
  if step = 0 then none
  else
    let w ← a.view.sliceAxis 0 (Spec.sliceStart len i step) (Spec.sliceStop len j step) step
    h.fillScalar ⟨a.buf, w⟩ x

end Heap

end Rumpy
