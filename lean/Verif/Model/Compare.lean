import Verif.Model.Reduce
import Verif.Model.Rearrange
import Verif.Spec.Compare
/-!
# Model: comparisons, logical functions, all/any, isclose (src/ops/comparison.rs,
src/ops/kernels/comparison.rs, src/ops/ufunc.rs, src/ops/array_methods/logical.rs)

Element types are parameters.  The operands' elements reach the kernel through `rdA` and `rdB`,
the conversion to the common dtype.
-/

namespace Rumpy
open Spec

/-- IEEE `x < y`. -/
def fltLt [LT K] [DecidableLT K] : Flt K → Flt K → Bool
  | .num x, .num y => decide (x < y)
  | .negInf, .num _ => true
  | .negInf, .posInf => true
  | .num _, .posInf => true
  | _, _ => false

/-- IEEE `x == y`. -/
def fltEq [DecidableEq K] : Flt K → Flt K → Bool
  | .num x, .num y => decide (x = y)
  | .negInf, .negInf => true
  | .posInf, .posInf => true
  | _, _ => false

/-- `CompareKernel` for the float types (src/ops/kernels/comparison.rs:32-66) and the closures of the
fallback (src/ops/ufunc.rs:506-513); the primitive operators are IEEE comparisons. -/
def cmpFlt [LT K] [DecidableLT K] [DecidableEq K] : Cmp → Flt K → Flt K → Bool
  | .gt, x, y => fltLt y x
  | .lt, x, y => fltLt x y
  | .ge, x, y => fltLt y x || fltEq x y
  | .le, x, y => fltLt x y || fltEq x y
  | .eq, x, y => fltEq x y
  | .ne, x, y => !fltEq x y

/-- `CompareKernel` for the integer types, src/ops/kernels/comparison.rs:68-75; also used for
datetime64 and timedelta64 (src/ops/dispatch.rs:1126-1127). -/
def cmpInt (signed : Bool) : Cmp → BitVec w → BitVec w → Bool
  | .gt, x, y => if signed then y.slt x else y.ult x
  | .lt, x, y => if signed then x.slt y else x.ult y
  | .ge, x, y => if signed then y.sle x else y.ule x
  | .le, x, y => if signed then x.sle y else x.ule y
  | .eq, x, y => x == y
  | .ne, x, y => x != y

/-- A complex number as the pair of its parts. -/
structure Cpx (K : Type u) where
  re : K
  im : K
  deriving DecidableEq, Repr

/-- `norm_sqr` of num-complex. -/
def Cpx.normSqr [Add K] [Mul K] (z : Cpx K) : K := z.re * z.re + z.im * z.im

/-- `CompareKernel` for the complex types, src/ops/kernels/comparison.rs:83-110, on finite parts. -/
def cmpCpx [Add K] [Mul K] [LT K] [DecidableLT K] [LE K] [DecidableLE K] [DecidableEq K] :
    Cmp → Cpx K → Cpx K → Bool
  | .gt, x, y => decide (y.normSqr < x.normSqr)
  | .lt, x, y => decide (x.normSqr < y.normSqr)
  | .ge, x, y => decide (y.normSqr ≤ x.normSqr)
  | .le, x, y => decide (x.normSqr ≤ y.normSqr)
  | .eq, x, y => decide (x = y)
  | .ne, x, y => decide (x ≠ y)

/-- Cross-dtype `astype`, src/array/mod.rs:354-359, 417-423: every element is converted in iteration
order. `conv` is `write_f64` after `read_f64`. -/
def castArr (conv : α → κ) (mem : Int → α) (v : View) (zero : κ) : Arr κ := mapUnaryFallback conv mem v zero

/-- `if a.dtype() != common_dtype { a.astype(common_dtype) } else { a.clone() }`,
src/ops/ufunc.rs:473-474. `item` is the element size of the common dtype. -/
def promoteOperand (same : Bool) (rd : α → κ) (item : Nat) (zero : κ) (h : Held α) : Held κ :=
  if same then ⟨fun p => rd (h.mem p), h.view⟩ else Held.of (castArr rd h.mem h.view zero) item zero

/-- `map_compare_op`, src/ops/ufunc.rs:468-522, over `dispatch_compare_kernel`
(src/ops/dispatch.rs:1082-1130) and `dispatch_compare_typed` (1133-1207).  `none` is a shape
mismatch.  `cmp` is the kernel of the chosen operator; `typed` is false for bool and strings, whose
`rdA`/`rdB` is `get_element`. -/
def compareOp (typed : Bool) (cmp : κ → κ → Bool) (sameA sameB : Bool) (rdA : α → κ) (rdB : β → κ) (item : Nat)
    (zero : κ) (a : Held α) (b : Held β) : Option (Arr Bool) := do
  let out ← broadcastShapes a.view.shape b.view.shape
  let a := promoteOperand sameA rdA item zero a
  let b := promoteOperand sameB rdB item zero b
  let a' ← a.view.broadcastTo out
  let b' ← b.view.broadcastTo out
  some (if typed then mapBinary cmp a.mem b.mem a' b' out false
    else mapBinaryFallback cmp a.mem b.mem a' b' out false)

/-- `compare_scalar`, src/ops/mod.rs:115-119: the scalar becomes a float64 array of shape `[1]`, and
the array is converted to the dtype common with float64. `none` is the panic of `expect`. -/
def compareScalar (typed : Bool) (cmp : κ → κ → Bool) (same : Bool) (rd : α → κ) (item : Nat) (zero : κ)
    (a : Held α) (s : κ) : Option (Arr Bool) :=
  compareOp typed cmp same true rd id item zero a (Held.of ⟨[1], [s]⟩ 8 zero)

/-- `map_binary_to_bool`, src/ops/comparison.rs:33-55, and `map_binary_logical`, 62-92, over
`broadcast_binary_setup`, 19-29. -/
def mapBinaryToBool (f : α → β → Bool) (a : Held α) (b : Held β) : Option (Arr Bool) := do
  let out ← broadcastShapes a.view.shape b.view.shape
  let a' ← a.view.broadcastTo out
  let b' ← b.view.broadcastTo out
  some (mapBinaryFallback f a.mem b.mem a' b' out false)

/-- `logical_and`, src/ops/comparison.rs:120-122. `tA` and `tB` are `is_truthy` of the dtypes. -/
def logicalAnd (tA : α → Bool) (tB : β → Bool) (a : Held α) (b : Held β) : Option (Arr Bool) :=
  mapBinaryToBool (fun x y => tA x && tB y) a b

/-- `logical_or`, src/ops/comparison.rs:125-127. -/
def logicalOr (tA : α → Bool) (tB : β → Bool) (a : Held α) (b : Held β) : Option (Arr Bool) :=
  mapBinaryToBool (fun x y => tA x || tB y) a b

/-- `logical_xor`, src/ops/comparison.rs:130-132. -/
def logicalXor (tA : α → Bool) (tB : β → Bool) (a : Held α) (b : Held β) : Option (Arr Bool) :=
  mapBinaryToBool (fun x y => tA x != tB y) a b

/-- `logical_not`, src/ops/comparison.rs:135-137, over `map_unary_logical`, 95-117. -/
def logicalNot (t : α → Bool) (a : Held α) : Arr Bool := mapUnaryFallback (fun x => !t x) a.mem a.view false

/-- The closure of `isclose`, src/ops/comparison.rs:176-186; arithmetic on numbers is exact. -/
def isCloseValue [CommRing K] [LinearOrder K] (rtol atol : K) (equalNan : Bool) (x y : Flt K) : Bool :=
  match x, y with
  | .nan, .nan => equalNan
  | .nan, _ => false
  | _, .nan => false
  | .num x, .num y => decide (|x - y| ≤ atol + rtol * |y|)
  | x, y => fltEq x y

/-- `isclose`, src/ops/comparison.rs:175-187. `rdA` and `rdB` are `get_element`. -/
def isclose [CommRing K] [LinearOrder K] (rtol atol : K) (equalNan : Bool) (rdA : α → Flt K) (rdB : β → Flt K)
    (a : Held α) (b : Held β) : Option (Arr Bool) :=
  mapBinaryToBool (fun x y => isCloseValue rtol atol equalNan (rdA x) (rdB y)) a b

/-- The loop of `all`, src/ops/array_methods/logical.rs:34-39. -/
def allLoop (t : α → Bool) (mem : Int → α) : List Int → Bool
  | [] => true
  | p :: ps => if !t (mem p) then false else allLoop t mem ps

/-- The loop of `any`, src/ops/array_methods/logical.rs:101-106. -/
def anyLoop (t : α → Bool) (mem : Int → α) : List Int → Bool
  | [] => false
  | p :: ps => if t (mem p) then true else anyLoop t mem ps

/-- `all`, src/ops/array_methods/logical.rs:26-40. -/
def allElems (t : α → Bool) (a : Held α) : Bool :=
  if sizeOf a.view.shape = 0 then true else allLoop t a.mem a.view.addrs

/-- `any`, src/ops/array_methods/logical.rs:93-107. -/
def anyElems (t : α → Bool) (a : Held α) : Bool :=
  if sizeOf a.view.shape = 0 then false else anyLoop t a.mem a.view.addrs

/-- `count_nonzero`, src/ops/array_methods/logical.rs:8-23. -/
def countTruthy (t : α → Bool) (a : Held α) : Nat :=
  if sizeOf a.view.shape = 0 then 0
  else a.view.addrs.foldl (fun n p => if t (a.mem p) then n + 1 else n) 0

/-- `allclose`, src/ops/comparison.rs:190-193. -/
def allclose [CommRing K] [LinearOrder K] (rtol atol : K) (equalNan : Bool) (rdA : α → Flt K) (rdB : β → Flt K)
    (a : Held α) (b : Held β) : Option Bool := do
  let close ← isclose rtol atol equalNan rdA rdB a b
  some (allElems id (Held.of close 1 false))

/-- `array_equal`, src/ops/comparison.rs:196-201, with `equal` 144-146; the arguments before `a` are
those of `compareOp`, with `eq` the kernel of `==`. -/
def arrayEqual (typed : Bool) (eq : κ → κ → Bool) (sameA sameB : Bool) (rdA : α → κ) (rdB : β → κ) (item : Nat)
    (zero : κ) (a : Held α) (b : Held β) : Bool :=
  if a.view.shape ≠ b.view.shape then false
  else ((compareOp typed eq sameA sameB rdA rdB item zero a b).map fun r => allElems id (Held.of r 1 false)).getD false

/-- The scan of one lane with early exit, src/ops/dispatch.rs:1828-1835 and 1890-1901: `d` are the
elements still to visit. -/
def laneScan (empty : Bool) (stop : α → Bool) : List α → Bool
  | [] => empty
  | x :: d => if stop x then !empty else laneScan empty stop d

/-- `dispatch_logical_axis_typed`, src/ops/dispatch.rs:1789-1840, and `dispatch_logical_axis_complex`,
1853-1906. `stop` is `v == zero` for `all` and `v != zero` for `any`. -/
def logicalAxis (empty : Bool) (stop : α → Bool) (a : Held α) (axis : Nat) : Arr Bool :=
  let v := a.view
  let axisLen := v.shape.getD axis 0
  let os := v.shape.eraseIdx axis
  let outShape := if os.isEmpty then [1] else os
  let outSize := sizeOf outShape
  let blank := List.replicate outSize false
  if outSize = 0 then ⟨outShape, blank⟩
  else if axisLen = 0 then
    ⟨outShape, if empty then writes ((List.range outSize).map fun i => (i, true)) blank else blank⟩
  else
    let st := v.strides.getD axis 0
    ⟨outShape, writes ((axisOffsetIter v.shape v.strides axis 0).toList.zipIdx.map fun ob =>
      (ob.2, laneScan empty stop ((List.range axisLen).map fun (j : Nat) => a.mem (v.offset + ob.1 + st * j)))) blank⟩

/-- The index vector of the fallback, src/ops/array_methods/logical.rs:70-74 with 78, and 137-141
with 145. -/
def laneIndex (ndim axis : Nat) (out : List Nat) (j : Nat) : List Nat :=
  (out.take (min axis out.length) ++ 0 :: (if axis < ndim - 1 then out.drop axis else [])).set axis j

/-- The fallback of `all_axis` and `any_axis`, src/ops/array_methods/logical.rs:49-89, 116-156 (int8,
datetime64, timedelta64 and strings): an empty axis returns the zero-filled result. -/
def logicalAxisFallback (empty : Bool) (stop : α → Bool) (a : Held α) (axis : Nat) : Arr Bool :=
  let v := a.view
  let axisLen := v.shape.getD axis 0
  let os := v.shape.eraseIdx axis
  let outShape := if os.isEmpty then [1] else os
  let outSize := sizeOf outShape
  let blank := List.replicate outSize false
  if outSize = 0 ∨ axisLen = 0 then ⟨outShape, blank⟩
  else ⟨outShape, writes ((odometerAll outShape).zipIdx.map fun io =>
    (io.2, laneScan empty stop ((List.range axisLen).map fun j =>
      a.mem (v.addr (laneIndex v.shape.length axis io.1 j))))) blank⟩

/-- `all_axis`, src/ops/array_methods/logical.rs:43-90, over `dispatch_all_axis`,
src/ops/dispatch.rs:1737-1754; `typed` says whether the dtype is in that table. -/
def allAxis (typed : Bool) (t : α → Bool) (a : Held α) (axis : Nat) : Arr Bool :=
  if typed then logicalAxis true (fun x => !t x) a axis else logicalAxisFallback true (fun x => !t x) a axis

/-- `any_axis`, src/ops/array_methods/logical.rs:110-157, over `dispatch_any_axis`,
src/ops/dispatch.rs:1757-1774. -/
def anyAxis (typed : Bool) (t : α → Bool) (a : Held α) (axis : Nat) : Arr Bool :=
  if typed then logicalAxis false t a axis else logicalAxisFallback false t a axis

end Rumpy
