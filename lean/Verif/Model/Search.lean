import Verif.Model.Select
import Mathlib.Order.Defs.LinearOrder
/-!
# Model: searching, index conversion, bit packing, put/choose (src/ops/indexing.rs:341-1190)
-/

namespace Rumpy
open Spec

/-- A call either returns, reports an error to the caller (`None`), or panics. -/
inductive Outcome (β : Type u) where
  | ok (b : β)
  | error
  | panic
deriving DecidableEq, Repr

/-! ### searchsorted and digitize -/

/-- The binary search loop, src/ops/indexing.rs:379-393: `goRight mid` says whether the element
at `mid` lies before the insertion point.  The same loop stands for the standard library's
`partition_point` in `digitize`. -/
def bsearch (goRight : Nat → Bool) (lo hi : Nat) : Nat :=
  if lo < hi then
    let mid := lo + (hi - lo) / 2
    if goRight mid then bsearch goRight (mid + 1) hi else bsearch goRight lo mid
  else lo
termination_by hi - lo
decreasing_by all_goals omega

/-- Test of the loop, src/ops/indexing.rs:384-388; `cmp` is `compare_elements(a[mid], v)`. -/
def goRight (left : Bool) (cmp : Ordering) : Bool :=
  if left then cmp == .lt else cmp != .gt

/-- `searchsorted`, src/ops/indexing.rs:344-401, for operands of one dtype: the one-dimensional
`a` is a view over memory, the values are visited in row-major order. -/
def searchsorted (cmp : α → α → Ordering) (mem : Int → α) (a : View) (v : Nd α) (left : Bool) :
    Option (Arr Nat) :=
  if a.shape.length ≠ 1 then none
  else
    let len := sizeOf a.shape
    let stride : Int := if a.cFlag then a.item else a.strides.getD 0 0
    some ⟨v.shape, (v.toList).map fun x =>
      bsearch (fun mid => goRight left (cmp (mem (a.offset + mid * stride)) x)) 0 len⟩

/-- `digitize` for one value, src/ops/indexing.rs:876-944; `lt` and `le` are the float
comparisons. -/
def digitize [LinearOrder α] (bins : List α) (right : Bool) (x : α) : Nat :=
  let n := bins.length
  let decreasing : Bool := if h : 2 ≤ n then decide (bins[n - 1] < bins[0]) else false
  if decreasing then
    let rev := bins.reverse
    let k := if right then bsearch (fun i => rev[i]?.any (· ≤ x)) 0 n
      else bsearch (fun i => rev[i]?.any (· < x)) 0 n
    n - k
  else if right then bsearch (fun i => bins[i]?.any (· < x)) 0 n
  else bsearch (fun i => bins[i]?.any (· ≤ x)) 0 n

/-! ### unravel_index and ravel_multi_index -/

/-- C-order index strides, src/ops/indexing.rs:694-699 and 750-756. -/
def cIdxStrides : List Nat → List Nat
  | [] => []
  | [_] => [1]
  | _ :: m :: s =>
    let r := cIdxStrides (m :: s)
    (r.headD 1 * m) :: r

/-- F-order index strides, src/ops/indexing.rs:687-692 and 744-749. -/
def fIdxStrides : List Nat → Nat → List Nat
  | [], _ => []
  | n :: s, st => st :: fIdxStrides s (st * n)

/-- The C-order loop of `unravel_index`, src/ops/indexing.rs:717-722. -/
def unravelC : List Nat → Nat → List Nat
  | [], _ => []
  | st :: sts, rem => rem / st :: unravelC sts (rem % st)

/-- The F-order loop of `unravel_index`, src/ops/indexing.rs:711-715. -/
def unravelF : List Nat → Nat → List Nat
  | [], _ => []
  | n :: s, rem => rem % n :: unravelF s (rem / n)

/-- `unravel_index`, src/ops/indexing.rs:667-731, coordinates per index instead of one array per
axis.  For a 0-d shape in C order `0..ndim - 1` underflows (panic).  A negative index cast with
`as usize` is rejected by the bounds check. -/
def unravelIndex (idx : List Int) (shape : List Nat) (fOrder : Bool) : Outcome (List (List Nat)) :=
  if idx.any fun i => decide (i < 0 ∨ (sizeOf shape : Int) ≤ i) then .error
  else if fOrder then .ok (idx.map fun i => unravelF shape i.toNat)
  else if shape = [] then .panic
  else .ok (idx.map fun i => unravelC (cIdxStrides shape) i.toNat)

/-- The `mode` argument, src/ops/indexing.rs:771-788. -/
inductive RavelMode where
  | clip | wrap | raise
deriving DecidableEq, Repr

/-- One coordinate under a mode, src/ops/indexing.rs:771-788.  `clamp(0, dim - 1)` and
`rem_euclid(dim)` panic for an axis of length 0. -/
def modeIndex (mode : RavelMode) (i : Int) (dim : Nat) : Outcome Int :=
  match mode with
  | .clip => if dim = 0 then .panic else .ok (max 0 (min i (dim - 1)))
  | .wrap => if dim = 0 then .panic else .ok (i % dim)
  | .raise => if i < 0 ∨ (dim : Int) ≤ i then .error else .ok i

/-- The inner loop of `ravel_multi_index`, src/ops/indexing.rs:765-791. -/
def ravelLoop (mode : RavelMode) : List Int → List Nat → List Nat → Int → Outcome Int
  | i :: idx, n :: s, st :: sts, acc =>
    match modeIndex mode i n with
    | .ok k => ravelLoop mode idx s sts (acc + k * st)
    | .error => .error
    | .panic => .panic
  | _, _, _, acc => .ok acc

/-- `ravel_multi_index` for one multi-index, src/ops/indexing.rs:730-796. -/
def ravelMultiIndex (idx : List Int) (shape : List Nat) (mode : RavelMode) (fOrder : Bool) : Outcome Int :=
  if idx.length ≠ shape.length then .error
  else if shape = [] then .panic
  else ravelLoop mode idx shape (if fOrder then fIdxStrides shape 1 else cIdxStrides shape) 0

/-! ### packbits and unpackbits -/

/-- Bit slot of the `pos`-th value of a byte, src/ops/indexing.rs:974-978, 1104-1108. -/
def bitSlot (big : Bool) (pos : Nat) : Nat := if big then 7 - pos else pos

/-- `byte |= val << slot`, src/ops/indexing.rs:972-978 and 1036-1043. -/
def packStep (big : Bool) (byte : BitVec 8) (pos : Nat) (val : Bool) : BitVec 8 :=
  byte ||| ((if val then 1#8 else 0#8) <<< bitSlot big pos)

/-- The loop of `packbits_flat`, src/ops/indexing.rs:958-1003: bytes stored at 0, 1, 2, … -/
def packLoop8 (big : Bool) : List Bool → BitVec 8 → Nat → List (BitVec 8)
  | [], byte, pos => if pos > 0 then [byte] else []
  | b :: r, byte, pos =>
    let byte := packStep big byte pos b
    if pos + 1 = 8 then byte :: packLoop8 big r 0#8 0 else packLoop8 big r byte (pos + 1)

/-- `packbits_flat`, src/ops/indexing.rs:958-1003; `bits` is the truthiness of the elements in
row-major order. -/
def packbitsFlat (big : Bool) (bits : List Bool) : Arr (BitVec 8) :=
  let outSize := (bits.length + 7) / 8
  let blank := List.replicate outSize 0#8
  if outSize = 0 then ⟨[outSize], blank⟩
  else ⟨[outSize], writes ((packLoop8 big bits 0#8 0).zipIdx.map fun x => (x.2, x.1)) blank⟩

/-- One bit of a byte, src/ops/indexing.rs:1104-1108 and 1164-1168. -/
def unpackBit (big : Bool) (byte : BitVec 8) (bit : Nat) : BitVec 8 :=
  (byte >>> bitSlot big bit) &&& 1#8

/-- The loops of `unpackbits_flat`, src/ops/indexing.rs:1087-1124: the inner loop stops when the
output is full. -/
def unpackLoop (big : Bool) (outSize : Nat) : List (BitVec 8) → Nat → List (BitVec 8)
  | [], _ => []
  | byte :: r, out =>
    let vals := ((List.range 8).map (unpackBit big byte)).take (outSize - out)
    vals ++ unpackLoop big outSize r (out + vals.length)

/-- `unpackbits_flat`, src/ops/indexing.rs:1087-1124. -/
def unpackbitsFlat (big : Bool) (bytes : List (BitVec 8)) (count : Option Nat) : Arr (BitVec 8) :=
  let full := bytes.length * 8
  let outSize := min (count.getD full) full
  let blank := List.replicate outSize 0#8
  if outSize = 0 then ⟨[outSize], blank⟩
  else ⟨[outSize], writes ((unpackLoop big outSize bytes 0).zipIdx.map fun x => (x.2, x.1)) blank⟩

/-- The byte of `packbits_axis` at an output index, src/ops/indexing.rs:1023-1044. -/
def packByteAt (big : Bool) (axis len : Nat) (a : List Nat → Bool) (o : List Nat) : BitVec 8 :=
  let start := o.getD axis 0 * 8
  let stop := min (start + 8) len
  (List.range' start (stop - start)).foldl
    (fun byte bit => packStep big byte (bit - start) (a (o.set axis bit))) 0#8

/-- `packbits_axis`, src/ops/indexing.rs:1005-1075, for an existing axis. -/
def packbitsAxis (big : Bool) (a : Nd Bool) (axis : Nat) : Arr (BitVec 8) :=
  if axis ≥ a.shape.length then packbitsFlat big a.toList
  else
    let out := a.shape.set axis ((a.shape.getD axis 0 + 7) / 8)
    let blank := List.replicate (sizeOf out) 0#8
    if sizeOf out = 0 then ⟨out, blank⟩
    else ⟨out, writes ((odometerAll out).zipIdx.map fun io =>
      (io.2, packByteAt big axis (a.shape.getD axis 0) a.get io.1)) blank⟩

/-- `unpackbits_axis`, src/ops/indexing.rs:1126-1190, for an existing axis. -/
def unpackbitsAxis (big : Bool) (a : Nd (BitVec 8)) (axis : Nat) (count : Option Nat) : Arr (BitVec 8) :=
  if axis ≥ a.shape.length then unpackbitsFlat big a.toList count
  else
    let full := a.shape.getD axis 0 * 8
    let out := a.shape.set axis (min (count.getD full) full)
    let blank := List.replicate (sizeOf out) 0#8
    if sizeOf out = 0 then ⟨out, blank⟩
    else ⟨out, writes ((odometerAll out).zipIdx.map fun io =>
      (io.2, unpackBit big (a.get (io.1.set axis (io.1.getD axis 0 / 8))) (io.1.getD axis 0 % 8))) blank⟩

/-! ### put, put_along_axis, choose -/

/-- The conversion of a flat index, src/ops/indexing.rs:514-519, last axis first. -/
def unflattenAux : List Nat → Nat → List Nat × Nat
  | [], rem => ([], rem)
  | n :: s, rem =>
    let (idx, rem) := unflattenAux s rem
    (rem % n :: idx, rem / n)

/-- Store one element of a view, `set_element`, src/array/mod.rs:167-178. -/
def setElement (mem : Int → α) (v : View) (idx : List Nat) (x : α) : Int → α :=
  fun p => if p = v.addr idx then x else mem p

/-- `put`, src/ops/indexing.rs:495-525.  The memory is returned in every case.  `i % 0` panics
when there is no value. -/
def put (mem : Int → α) (v : View) (idx : List Int) (values : List α) : (Int → α) × Outcome Unit :=
  if idx = [] then (mem, .ok ())
  else
    match idx.mapM fun i => normalizeIdx i (sizeOf v.shape) with
    | none => (mem, .error)
    | some ks =>
      if values = [] then (mem, .panic)
      else (ks.zipIdx.foldl (fun m ki =>
        match values[ki.2 % values.length]? with
        | some x => setElement m v (unflattenAux v.shape ki.1).1 x
        | none => m) mem, .ok ())

/-- The loop of `put_along_axis`, src/ops/indexing.rs:551-578: stores until an index is out of
range. -/
def putAlongLoop (v : View) (I : Nd Int) (vals : Nd α) (axis : Nat) :
    List (List Nat) → (Int → α) → (Int → α) × Outcome Unit
  | [], mem => (mem, .ok ())
  | i :: r, mem =>
    match normalizeIdx (I.get i) (v.shape.getD axis 0) with
    | none => (mem, .error)
    | some k => putAlongLoop v I vals axis r (setElement mem v (i.set axis k) (vals.get i))

/-- `put_along_axis`, src/ops/indexing.rs:528-587. -/
def putAlongAxis (mem : Int → α) (v : View) (I : Nd Int) (vals : Nd α) (axis : Nat) :
    (Int → α) × Outcome Unit :=
  if axis ≥ v.shape.length ∨ I.shape ≠ vals.shape ∨ I.shape.length ≠ v.shape.length then (mem, .error)
  else if !((List.range v.shape.length).all fun i => i == axis || v.shape.getD i 0 == I.shape.getD i 0) then
    (mem, .error)
  else putAlongLoop v I vals axis (odometerAll I.shape) mem

/-- `choose`, src/ops/indexing.rs:590-657, for choices of one dtype.  A negative choice cast with
`as usize` is rejected by the bounds check. -/
def choose (zero : α) (I : Nd Int) (choices : List (Nd α)) : Option (Arr α) :=
  if choices = [] then none
  else if !(choices.all fun c => c.shape == I.shape) then none
  else do
    let ws ← (odometerAll I.shape).zipIdx.mapM fun io =>
      let k := I.get io.1
      if k < 0 then none else (choices[k.toNat]?).map fun c => (io.2, c.get io.1)
    some ⟨I.shape, writes ws (List.replicate (sizeOf I.shape) zero)⟩

/-! ### diag_indices, tril_indices, triu_indices -/

/-- `diag_indices`, src/ops/indexing.rs:808-820. -/
def diagIndices (n ndim : Nat) : List (List Nat) := List.replicate ndim (List.range n)

/-- `tril_indices`, src/ops/indexing.rs:823-845: the (row, column) pairs pushed by the loops. -/
def trilIndices (n : Nat) (k : Int) (m : Nat) : List (Nat × Nat) :=
  (List.range n).flatMap fun (i : Nat) =>
    let maxCol := (max (min ((i : Int) + k + 1) m) 0).toNat
    (List.range maxCol).map fun j => (i, j)

/-- `triu_indices`, src/ops/indexing.rs:848-870. -/
def triuIndices (n : Nat) (k : Int) (m : Nat) : List (Nat × Nat) :=
  (List.range n).flatMap fun (i : Nat) =>
    let startCol := (max ((i : Int) + k) 0).toNat
    (List.range' startCol (m - startCol)).map fun j => (i, j)

end Rumpy
