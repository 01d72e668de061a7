import Verif.Spec.Arith
import Verif.Model.Cast
import Verif.Model.Elementwise
import Verif.Model.FloatOps
import Verif.Model.IntOps
import Verif.Model.Moments
import Verif.Model.Search
import Verif.Model.Ufunc
/-!
# Model: arithmetic of two arrays, and of an array and a Python number

Arrays of bools, integers and floats (src/ops/ufunc.rs, src/ops/mod.rs, src/python/pyarray/mod.rs, src/python/ufuncs.rs); complex
numbers are treated in Model/Complex, dates in Model/TimeArith.
-/

namespace Rumpy
open Spec

/-- Rust's `powf` of `f32` and `f64`. -/
structure Powf where
  single : Flt ℚ → Flt ℚ → Flt ℚ
  double : Flt ℚ → Flt ℚ → Flt ℚ

/-- The operation among those of Model/FloatOps; `none`: `Pow`. -/
def arithFlt : ArithOp → Option FltOp
  | .add => some .add
  | .sub => some .sub
  | .mul => some .mul
  | .div => some .div
  | .mod => some .mod
  | .floorDiv => some .floorDiv
  | .maximum => some .maximum
  | .minimum => some .minimum
  | .pow => none

/-- The operation among those of Model/IntOps; `none`: `Div`, which never reaches integers. -/
def arithInt : ArithOp → Option IntOp
  | .add => some .add
  | .sub => some .sub
  | .mul => some .mul
  | .div => none
  | .mod => some .mod
  | .floorDiv => some .floorDiv
  | .maximum => some .maximum
  | .minimum => some .minimum
  | .pow => some .pow

/-- The operation among those on bools. -/
def arithBool : ArithOp → BoolOp
  | .add => .add
  | .sub => .sub
  | .mul => .mul
  | .div => .div
  | .pow => .pow
  | .mod => .mod
  | .floorDiv => .floorDiv
  | .maximum => .maximum
  | .minimum => .minimum

/-- The value of the bits of a Rust integer. -/
def bitsValue (signed : Bool) {w : Nat} (r : BitVec w) : Int := if signed then r.toInt else r.toNat

/-- Operation on two integers of one dtype (Model/IntOps). -/
def intElem (out : Bool) (op : ArithOp) (d : DType) (x y : Int) : Outcome Elem :=
  match arithInt op with
  | some o => match intBinary out (DType.isSigned d) o (BitVec.ofInt (DType.intBits d) x) (BitVec.ofInt (DType.intBits d) y) with
    | .ok r => .ok (.int (bitsValue (DType.isSigned d) r))
    | .error => .error
    | .panic => .panic
  | none => .ok (.int 0)

/-- Operation on two floats of a format: kernels of src/ops/kernels/arithmetic.rs:94-179, 269-350 (Model/FloatOps) and `powf`. -/
def fltElem (pw : Powf) (neg : Bool) (op : ArithOp) (d : DType) (x y : Flt ℚ) : Flt ℚ :=
  match arithFlt op, d with
  | some o, .f16 => halfKernel neg o x y
  | some o, .f32 => floatKernel 24 (-149) 104 neg o x y
  | some o, _ => floatKernel 53 (-1074) 971 neg o x y
  | none, .f16 => toFormat 11 (-24) 5 (pw.single x y)
  | none, .f32 => pw.single x y
  | none, _ => pw.double x y

/-- One element for operands of one dtype, src/ops/ufunc.rs:266-290, 324-330; `out`: an output array is passed in. -/
def sameElem (out : Bool) (pw : Powf) (neg : Bool) (op : ArithOp) (d : DType) (x y : Elem) : Outcome Elem :=
  match x, y with
  | .bool u, .bool v => .ok (.bool (boolBinary (arithBool op) u v))
  | .flt u, .flt v => .ok (.flt (fltElem pw neg op d u v))
  | .int u, .int v => intElem out op d u v
  | _, _ => .ok (zeroElem d)

/-- The operation on two `f64`, src/ops/ufunc.rs:418-427. -/
def mixedReal (pw : Powf) (neg : Bool) (op : ArithOp) (x y : Flt ℚ) : Flt ℚ :=
  match arithFlt op with
  | none => pw.double x y
  | some o => if o = .div then (if fltEq y (.num 0) then .nan else floatKernel 53 (-1074) 971 neg .div x y)
    else floatKernel 53 (-1074) 971 neg o x y

/-- One element for operands of two different real dtypes with result dtype `r`, src/ops/ufunc.rs:411-458. -/
def mixedElem (pw : Powf) (neg : Bool) (op : ArithOp) (r : DType) (x y : Elem) : Outcome Elem :=
  .ok (writeF64 r (mixedReal pw neg op ((readF64 x).getD (.num 0)) ((readF64 y).getD (.num 0))))

/-- One element of the result. -/
def arithElem (out : Bool) (pw : Powf) (neg : Bool) (op : ArithOp) (a b : DType) (x y : Elem) : Outcome Elem :=
  if a = b then sameElem out pw neg op a x y else mixedElem pw neg op (promote a b) x y

/-- Whether the kernel dispatch takes the operation, src/ops/dispatch.rs:269-342, src/ops/ufunc.rs:265-290. -/
def arithTyped (out : Bool) (op : ArithOp) (a b : DType) : Bool :=
  !out && decide (a = b) && decide (a ≠ .bool) && (decide (op ≠ .pow) || DType.isFloat a)

/-- A panic in one element is a panic of the call. -/
def collapse (d : DType) (r : Arr (Outcome Elem)) : Outcome (DType × Arr Elem) :=
  if r.data.any (fun o => decide (o = .panic)) then .panic
  else .ok (d, ⟨r.shape, r.data.map fun o => match o with | .ok x => x | _ => zeroElem d⟩)

/-- `map_binary_op_inplace` after the conversions for division, src/ops/ufunc.rs:209-211, 265-461. -/
def arithDirect (out : Bool) (pw : Powf) (neg : Bool) (op : ArithOp) (a b : DType) (h g : Held Elem) : Outcome (DType × Arr Elem) :=
  match binaryOp (arithTyped out op a b) (arithElem out pw neg op a b) h.mem g.mem h.view g.view (.ok (zeroElem (promote a b))) with
  | none => .error
  | some r => collapse (promote a b) r

/-- `is_integer_kind`, src/ops/ufunc.rs:53-56. -/
def isIntegerKind (d : DType) : Bool := DType.isSigned d || DType.isUnsigned d

/-- `astype` as an array of its own. -/
def recast (a b : DType) (h : Held Elem) : Held Elem := Held.of (astype a b h) (DType.itemsize b) (zeroElem b)

/-- `map_binary_op_inplace`, src/ops/ufunc.rs:177-461. -/
def arith (out : Bool) (pw : Powf) (neg : Bool) (op : ArithOp) (a b : DType) (h g : Held Elem) : Outcome (DType × Arr Elem) :=
  if op = .div ∧ isIntegerKind a = true ∧ isIntegerKind b = true then
    arithDirect false pw neg op .f64 .f64 (recast a .f64 h) (recast b .f64 g)
  else if op = .div ∧ isIntegerKind a = true then arithDirect false pw neg op (floatTarget a) b (recast a (floatTarget a) h) g
  else if op = .div ∧ isIntegerKind b = true then arithDirect false pw neg op a (floatTarget b) h (recast b (floatTarget b) g)
  else arithDirect out pw neg op a b h g

/-! ### Python numbers -/

/-- `extract::<f64>()` of a Python number; a whole number that is too large and a complex number fail. -/
def pyF64 : PyScalar → Option (Flt ℚ)
  | .int n => match roundBin 53 (-1074) 971 n with
    | .num q => some (.num q)
    | _ => none
  | .float x => some x
  | .complex _ _ => none

/-- `RumpyArray::full(vec![1], x, d)`, src/array/constructors.rs:176-192. -/
def fullOne (d : DType) (x : Flt ℚ) : Held Elem := Held.of (oneOf (writeF64 d x)) (DType.itemsize d) (zeroElem d)

/-- `array op number`: `binary_op_dispatch_with_elision` (src/python/pyarray/mod.rs:1241-1249), `binary_op_dispatch` (1272-1278) and
`scalar_op` (src/ops/mod.rs:97-101); an error of the operation is a panic (`expect`), a number that cannot be read a `TypeError`. -/
def scalarOp (pw : Powf) (neg : Bool) (op : ArithOp) (d : DType) (h : Held Elem) (s : PyScalar) : Outcome (DType × Arr Elem) :=
  match pyF64 s with
  | none => .error
  | some x => match arith false pw neg op d d h (fullOne d x) with
    | .error => .panic
    | r => r

/-- `number op array`: `rbinary_op_dispatch` (src/python/pyarray/mod.rs:1281-1294), `rscalar_op` (src/ops/mod.rs:104-107).  `__radd__`
and `__rmul__` (src/python/pyarray/dunder_ops.rs:22-25, 39-41) compute `array op number`. -/
def rscalarOp (pw : Powf) (neg : Bool) (op : ArithOp) (d : DType) (h : Held Elem) (s : PyScalar) : Outcome (DType × Arr Elem) :=
  if op = .add ∨ op = .mul then scalarOp pw neg op d h s
  else match pyF64 s with
    | none => .error
    | some x => match arith false pw neg op d d (fullOne d x) h with
      | .error => .panic
      | r => r

/-- `apply_binary_ufunc` (src/python/ufuncs.rs:371-409) of an array and a number: the number becomes a float64 array. -/
def ufuncScalar (pw : Powf) (neg : Bool) (op : ArithOp) (d : DType) (h : Held Elem) (s : PyScalar) : Outcome (DType × Arr Elem) :=
  match pyF64 s with
  | none => .error
  | some x => arith false pw neg op d .f64 h (fullOne .f64 x)

end Rumpy
