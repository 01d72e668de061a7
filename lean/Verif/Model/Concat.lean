import Verif.Model.Array
import Verif.Spec.View
/-!
# Model: joining and splitting arrays (src/array/manipulation.rs:10-162)
-/

namespace Rumpy
open Spec

/-- Total length along the axis, src/array/manipulation.rs:36. -/
def axisTotal (axis : Nat) (arrs : List (Nd α)) : Nat :=
  (arrs.map fun a => a.shape.getD axis 0).sum

/-- Shape check of `concatenate` against the first array, src/array/manipulation.rs:23-32. -/
def concatCompatible (axis : Nat) (first other : List Nat) : Bool :=
  other.length == first.length &&
    ((List.range first.length).all fun i => i == axis || first.getD i 0 == other.getD i 0)

/-- The stores of the copy loops, src/array/manipulation.rs:52-75. -/
def concatWrites (axis : Nat) (out : List Nat) : List (Nd α) → Nat → List (Nat × α)
  | [], _ => []
  | a :: r, off =>
    ((odometerAll a.shape).map fun idx => (linearIndex (idx.modify axis (· + off)) out, a.get idx))
      ++ concatWrites axis out r (off + a.shape.getD axis 0)

/-- `concatenate`, src/array/manipulation.rs:10-78, for arrays of one dtype; `zero` is what
`zeros` fills the result with. -/
def concatenate (zero : α) (arrs : List (Nd α)) (axis : Nat) : Option (Arr α) :=
  match arrs with
  | [] => none
  | first :: rest =>
    if axis ≥ first.shape.length then none
    else if !(rest.all fun a => concatCompatible axis first.shape a.shape) then none
    else
      let out := first.shape.set axis (axisTotal axis (first :: rest))
      let blank := List.replicate (sizeOf out) zero
      if sizeOf out = 0 then some ⟨out, blank⟩
      else some ⟨out, writes (concatWrites axis out (first :: rest) 0) blank⟩

/-- `stack`, src/array/manipulation.rs:82-112; `expand_dims` is taken at its meaning
(`Props.C10_expand_dims`). -/
def stack (zero : α) (arrs : List (Nd α)) (axis : Nat) : Option (Arr α) :=
  match arrs with
  | [] => none
  | first :: rest =>
    if axis > first.shape.length then none
    else if !(rest.all fun a => a.shape == first.shape) then none
    else concatenate zero ((first :: rest).map fun a => a.expandDims axis) axis

/-- `split_into_sizes`, src/array/manipulation.rs:151-162. -/
def splitIntoSizes (v : View) (axis : Nat) : List Nat → Int → Option (List View)
  | [], _ => some []
  | n :: ns, start => do
    let s ← v.sliceAxis axis start (start + n) 1
    let r ← splitIntoSizes v axis ns (start + n)
    some (s :: r)

/-- `split`, src/array/manipulation.rs:116-128. -/
def split (v : View) (sections axis : Nat) : Option (List View) :=
  match v.shape[axis]? with
  | none => none
  | some len =>
    if sections = 0 then none
    else if len % sections ≠ 0 then none
    else splitIntoSizes v axis (List.replicate sections (len / sections)) 0

/-- Section sizes of `array_split`, src/array/manipulation.rs:132-147. -/
def arraySplitSizes (len sections : Nat) : List Nat :=
  (List.range sections).map fun i => if i < len % sections then len / sections + 1 else len / sections

/-- `array_split`, src/array/manipulation.rs:132-147. -/
def arraySplit (v : View) (sections axis : Nat) : Option (List View) :=
  match v.shape[axis]? with
  | none => none
  | some len =>
    if sections = 0 then none else splitIntoSizes v axis (arraySplitSizes len sections) 0

/-! ### The bytes of `concatenate` when dtypes differ -/

/-- Copy loop of `concatenate` on 1-D contiguous arrays at byte level: `copy_element` of the
*first* array's dtype copies `item` bytes from `src + k * stride`
(src/array/manipulation.rs:38, 71-72). `none` is a read past the end of the source. -/
def concatBytes1 (item : Nat) (src : List UInt8) (srcItem len : Nat) : Option (List UInt8) :=
  ((List.range len).mapM fun k =>
    if k * srcItem + item ≤ src.length then some ((src.drop (k * srcItem)).take item) else none).map List.flatten

end Rumpy
