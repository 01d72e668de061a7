import Verif.Spec.Nd
/-!
# Model: memory layout and iteration

Models `src/array/mod.rs` (strides, contiguity, index arithmetic),
`src/array/iter.rs` (the back-stride iterators) and the layout part of
`RumpyArray`.

Loops of the form `for i in (0..ndim).rev()` with an early exit are written as
recursion that handles the tail (the later axes) first and then the head; the
Boolean result says whether the loop is still running when it reaches the head.
-/

namespace Rumpy

/-- `shape.iter().product()`; src/array/mod.rs:61-63 (`size`). -/
def sizeOf (shape : List Nat) : Nat := shape.foldl (· * ·) 1

/-- `compute_c_strides`, src/array/mod.rs:486-497.  Returns the strides and the
final value of the running variable `stride`. -/
def cStridesAux (itemsize : Nat) : List Nat → List Int × Int
  | [] => ([], itemsize)
  | n :: s =>
    let (st, stride) := cStridesAux itemsize s
    (stride :: st, stride * n)

/-- `compute_c_strides`, src/array/mod.rs:486-497. -/
def cStrides (shape : List Nat) (itemsize : Nat) : List Int :=
  (cStridesAux itemsize shape).1

/-- Loop of `compute_f_strides`, src/array/mod.rs:500-511. -/
def fStridesLoop : List Nat → Int → List Int
  | [], _ => []
  | n :: s, stride => stride :: fStridesLoop s (stride * n)

/-- `compute_f_strides`, src/array/mod.rs:500-511. -/
def fStrides (shape : List Nat) (itemsize : Nat) : List Int :=
  fStridesLoop shape itemsize

/-- State of the contiguity loops: still running with an expected stride, or
decided. -/
inductive Contig where
  | run (expected : Int)
  | done (b : Bool)
deriving DecidableEq, Repr

/-- One round of the contiguity loops, src/array/mod.rs:520-526 and 538-544. -/
def contigStep (n : Nat) (st : Int) : Contig → Contig
  | .done b => .done b
  | .run e =>
    if n = 0 then .done true
    else if n ≠ 1 ∧ st ≠ e then .done false
    else .run (e * n)

/-- Result of the loop. -/
def Contig.result : Contig → Bool
  | .run _ => true
  | .done b => b

/-- Loop of `is_c_contiguous` (last axis first), src/array/mod.rs:518-527. -/
def isCAux (itemsize : Nat) : List Nat → List Int → Contig
  | n :: s, st :: sts => contigStep n st (isCAux itemsize s sts)
  | _, _ => .run itemsize

/-- `is_c_contiguous`, src/array/mod.rs:514-529. -/
def isCContiguous (shape : List Nat) (strides : List Int) (itemsize : Nat) : Bool :=
  (isCAux itemsize shape strides).result

/-- Loop of `is_f_contiguous` (first axis first), src/array/mod.rs:536-545. -/
def isFAux : List Nat → List Int → Contig → Contig
  | n :: s, st :: sts, c => isFAux s sts (contigStep n st c)
  | _, _, c => c

/-- `is_f_contiguous`, src/array/mod.rs:532-547. -/
def isFContiguous (shape : List Nat) (strides : List Int) (itemsize : Nat) : Bool :=
  (isFAux shape strides (.run itemsize)).result

/-- `byte_offset_for`, src/array/mod.rs:181-187. -/
def byteOffset : List Nat → List Int → Int
  | i :: idx, st :: sts => (i : Int) * st + byteOffset idx sts
  | _, _ => 0

/-- `increment_indices`, src/array/mod.rs:550-558.  The Boolean is `true` when
every axis wrapped (the loop ran to the end). -/
def incrAux : List Nat → List Nat → List Nat × Bool
  | i :: idx, n :: s =>
    let (idx', carry) := incrAux idx s
    if carry then
      if i + 1 < n then ((i + 1) :: idx', false) else (0 :: idx', true)
    else (i :: idx', false)
  | idx, _ => (idx, true)

/-- `increment_indices`, src/array/mod.rs:550-558. -/
def incrementIndices (idx shape : List Nat) : List Nat := (incrAux idx shape).1

/-- `for i in 0..n { visit(indices); increment_indices(..) }`: the indices
visited by the common loop, e.g. src/ops/ufunc.rs:319-330. -/
def odometer (shape : List Nat) : Nat → List Nat → List (List Nat)
  | 0, _ => []
  | k + 1, idx => idx :: odometer shape k (incrementIndices idx shape)

/-- The whole walk: start at zero, `size` rounds. -/
def odometerAll (shape : List Nat) : List (List Nat) :=
  odometer shape (sizeOf shape) (List.replicate shape.length 0)

/-- `StridedIter`, src/array/iter.rs:10-17. -/
structure StridedIter where
  shape : List Nat
  strides : List Int
  backstrides : List Int
  counters : List Nat
  offset : Int
  remaining : Nat
deriving Repr

/-- `StridedIter::new`, src/array/iter.rs:21-37. -/
def StridedIter.new (shape : List Nat) (strides : List Int) (base : Int) : StridedIter where
  shape := shape
  strides := strides
  backstrides := List.zipWith (fun (s : Nat) (st : Int) => if s > 0 then ((s : Int) - 1) * st else 0) shape strides
  counters := List.replicate shape.length 0
  offset := base
  remaining := sizeOf shape

/-- Loop of `StridedIter::advance`, src/array/iter.rs:41-53, last axis first.
Arguments: shape, strides, backstrides, counters, offset.  Result: counters,
offset, and whether the loop ran to the end. -/
def advanceAux : List Nat → List Int → List Int → List Nat → Int → List Nat × Int × Bool
  | n :: s, st :: sts, b :: bs, c :: cs, off =>
    let (cs', off', carry) := advanceAux s sts bs cs off
    if carry then
      if c + 1 < n then ((c + 1) :: cs', off' + st, false)
      else (0 :: cs', off' - b, true)
    else (c :: cs', off', false)
  | _, _, _, cs, off => (cs, off, true)

/-- `StridedIter::advance`, src/array/iter.rs:41-53. -/
def StridedIter.advance (it : StridedIter) : StridedIter :=
  let r := advanceAux it.shape it.strides it.backstrides it.counters it.offset
  { it with counters := r.1, offset := r.2.1 }

/-- `StridedIter::next`, src/array/iter.rs:60-70. -/
def StridedIter.next (it : StridedIter) : Option (Int × StridedIter) :=
  if it.remaining = 0 then none
  else
    let it' := { it with remaining := it.remaining - 1 }
    some (it.offset, if it'.remaining > 0 then it'.advance else it')

/-- Draining the iterator (`for offset in iter`): everything it yields.  `fuel`
only bounds the number of calls; `StridedIter.toList` uses `remaining`, which
`next` decreases by one each time. -/
def StridedIter.drain : Nat → StridedIter → List Int
  | 0, _ => []
  | fuel + 1, it =>
    match it.next with
    | none => []
    | some (o, it') => o :: drain fuel it'

/-- All offsets the iterator yields.  The extra unit of fuel is the call that
returns `None`. -/
def StridedIter.toList (it : StridedIter) : List Int := it.drain (it.remaining + 1)

/-- `AxisOffsetIter::new`, src/array/iter.rs:93-114. -/
def axisOffsetIter (shape : List Nat) (strides : List Int) (axis : Nat) (base : Int) : StridedIter :=
  let os := shape.eraseIdx axis
  let ost := strides.eraseIdx axis
  if os.isEmpty then StridedIter.new [1] [0] base else StridedIter.new os ost base

end Rumpy
