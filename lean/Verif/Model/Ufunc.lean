import Verif.Spec.Ufunc
import Verif.Model.Cast
import Verif.Model.Elementwise
import Verif.Model.FloatOps
import Verif.Model.Search
/-!
# Model: functions of one array (src/ops/ufunc.rs, src/ops/dispatch.rs, src/ops/kernels/math.rs)

`Libm` stands for Rust's own `sqrt`, `exp`, `sin` and so on in single and double precision and for the complex kernels, which
property C85 treats.  A float is its exact value, so the two zeros are one value; the sign of a zero, where it matters, is the
parameter `neg`.
-/

namespace Rumpy
open Spec

/-- Rust's mathematical functions on `f32`, `f64` and on complex numbers. -/
structure Libm where
  single : MathFn → Flt ℚ → Flt ℚ
  double : MathFn → Flt ℚ → Flt ℚ
  complex : MathFn → Flt ℚ → Flt ℚ → Flt ℚ × Flt ℚ

/-- `is_transcendental`, src/ops/ufunc.rs:45-50. -/
def isTranscendental : MathFn → Bool
  | .exp | .log | .log10 | .log2 | .sqrt | .sin | .cos | .tan | .sinh | .cosh | .tanh | .arcsin | .arccos | .arctan => true
  | _ => false

/-- The dtype a non-float array is converted to, src/ops/ufunc.rs:69-76. -/
def floatTarget (d : DType) : DType :=
  if DType.itemsize d ≤ 1 then .f16 else if DType.itemsize d ≤ 2 then .f32 else .f64

/-- The dispatch function an operation is sent to, src/ops/ufunc.rs:94-135 with src/ops/dispatch.rs:795-917, 2101-2128. -/
inductive KernelGroup
  | float | int | predicate | none
deriving DecidableEq, Repr

def kernelGroup : MathFn → KernelGroup
  | .neg | .abs | .square | .sign | .positive => .int
  | .isnan | .isinf | .isfinite | .signbit | .isneginf | .isposinf => .predicate
  | .isreal | .iscomplex => .none
  | _ => .float

/-- The dtypes a dispatch function handles, src/ops/dispatch.rs:924-931, 951-966, 2147-2162. -/
def handles : KernelGroup → DType → Bool
  | .none, _ => false
  | .float, d => DType.isFloat d || DType.isComplex d
  | _, d => DType.isFloat d || DType.isComplex d || DType.isSigned d || DType.isUnsigned d

/-- Rust's negation and `ceil` of floats. -/
def fltNegate : Flt ℚ → Flt ℚ
  | .num q => .num (-q)
  | .posInf => .negInf
  | .negInf => .posInf
  | .nan => .nan

def fltCeil : Flt ℚ → Flt ℚ
  | .num x => .num ⌈x⌉
  | x => x

/-- The kernels of `f64` and `f32`, src/ops/kernels/math.rs:119-248. -/
def floatFn (p : Nat) (lo hi : Int) (lib : MathFn → Flt ℚ → Flt ℚ) (neg : Bool) (f : MathFn) (x : Flt ℚ) : Flt ℚ :=
  match f with
  | .neg => fltNegate x
  | .abs => fltAbs x
  | .floor => fltFloor x
  | .ceil => fltCeil x
  | .trunc => fltTrunc x
  | .rint => fltRint x
  | .square => fltMul p lo hi x x
  | .sign => fltSign x
  | .positive => x
  | .reciprocal => fltDiv p lo hi neg (.num 1) x
  | f => lib f x

/-- The kernels of `f16`, src/ops/kernels/math.rs:259-385: computed in `f32` and rounded, but for `Sign` and `Positive`. -/
def halfFn (lib : MathFn → Flt ℚ → Flt ℚ) (neg : Bool) (f : MathFn) (x : Flt ℚ) : Flt ℚ :=
  match f with
  | .sign => fltSign x
  | .positive => x
  | f => toFormat 11 (-24) 5 (floatFn 24 (-149) 104 lib neg f x)

/-- The tests on floats, src/ops/kernels/math.rs:723-750, 756-779. -/
def floatTest (neg : Bool) (f : MathFn) (x : Flt ℚ) : Bool :=
  match f, x with
  | .isnan, x => fltIsNan x
  | .isinf, x => fltIsInf x
  | .isfinite, x => !fltIsNan x && !fltIsInf x
  | .signbit, .num q => if q = 0 then neg else decide (q < 0)
  | .signbit, .nan => neg
  | .signbit, .negInf => true
  | .isneginf, .negInf => true
  | .isposinf, .posInf => true
  | _, _ => false

/-- The integer with the same bits in the range of a dtype. -/
def wrapTo (lo hi n : Int) : Int := lo + (n - lo) % (hi - lo + 1)

/-- The kernels of the integers, src/ops/kernels/math.rs:391-439.  `abs` of the least signed number wraps in a release build; in
a build with overflow checks it panics (`mathPanics`). -/
def intFn (lo hi : Int) (f : MathFn) (v : Int) : Int :=
  match f with
  | .neg => wrapTo lo hi (-v)
  | .abs => if lo < 0 then wrapTo lo hi |v| else v
  | .square => wrapTo lo hi (v * v)
  | .sign => if lo < 0 then Int.sign v else if 0 < v then 1 else 0
  | _ => v

/-- The tests on integers, src/ops/kernels/math.rs:782-811. -/
def intTest (signed : Bool) (f : MathFn) (v : Int) : Bool :=
  match f with
  | .isfinite => true
  | .signbit => signed && decide (v < 0)
  | _ => false

/-- The tests on complex numbers, src/ops/kernels/math.rs:823-850. -/
def complexTest (neg : Bool) (f : MathFn) (x y : Flt ℚ) : Bool :=
  match f with
  | .isnan => fltIsNan x || fltIsNan y
  | .isinf => fltIsInf x || fltIsInf y
  | .isfinite => floatTest neg .isfinite x && floatTest neg .isfinite y
  | .signbit => floatTest neg .signbit x
  | .isneginf => floatTest neg .isneginf x && fltEq y (.num 0)
  | .isposinf => floatTest neg .isposinf x && fltEq y (.num 0)
  | _ => false

/-- The kernel applied to one element. -/
def kernelElem (lib : Libm) (neg : Bool) (f : MathFn) (d : DType) (x : Elem) : Elem :=
  if kernelGroup f = .predicate then
    match x with
    | .flt v => .bool (floatTest neg f v)
    | .int v => .bool (intTest (DType.isSigned d) f v)
    | .cpx v w => .bool (complexTest neg f v w)
    | x => x
  else
    match d, x with
    | .f16, .flt v => .flt (halfFn lib.single neg f v)
    | .f32, .flt v => .flt (floatFn 24 (-149) 104 lib.single neg f v)
    | .f64, .flt v => .flt (floatFn 53 (-1074) 971 lib.double neg f v)
    | _, .cpx v w => .cpx (lib.complex f v w).1 (lib.complex f v w).2
    | d, .int v => match d.intRange with
      | some (lo, hi) => .int (intFn lo hi f v)
      | none => .int v
    | _, x => x

/-- `unary_op` of the integers for the operations that reach it, src/array/dtype/macros.rs:261-302, 463-504. -/
def intTrait1 (lib : Libm) (lo hi : Int) (f : MathFn) (v : Int) : Int :=
  match f with
  | .floor | .ceil | .trunc | .rint => v
  | .reciprocal => if v ≠ 0 then Int.tdiv 1 v else 0
  | .exp2 | .expm1 | .log1p | .cbrt | .arcsinh | .arccosh | .arctanh => fltToInt lo hi (lib.double f (.num (intToF64 v)))
  | .isreal => 1
  | .iscomplex => 0
  | _ => v

/-- `unary_op` of an element for the operations that reach it: bools src/array/dtype/bool.rs:41-49, integers
macros.rs:259-304, 461-506, dates and durations datetime64.rs:166-175, 343-351, the real-number test of floats macros.rs:86-87
and of complex numbers complex128.rs:269-270, strings string.rs:133-143 (nothing is stored, the zero stays). -/
def traitElem (lib : Libm) (f : MathFn) (d : DType) (x : Elem) : Elem :=
  match d, x with
  | .bool, .bool v => .bool (if f = .neg then !v else v)
  | .datetime _, .int v | .timedelta _, .int v =>
    .int (if f = .neg then wrapTo (-2 ^ 63) (2 ^ 63 - 1) (-v) else if f = .abs then wrapTo (-2 ^ 63) (2 ^ 63 - 1) |v| else v)
  | d, .int v => match d.intRange with
    | some (lo, hi) => .int (intTrait1 lib lo hi f v)
    | none => .int v
  | _, .flt v => .flt (if f = .isreal then .num 1 else if f = .iscomplex then .num 0 else v)
  | _, .cpx v w => if f = .isreal then .cpx (if fltEq w (.num 0) then .num 1 else .num 0) (.num 0)
    else if f = .iscomplex then .cpx (if fltEq w (.num 0) then .num 0 else .num 1) (.num 0) else .cpx v w
  | d, _ => zeroElem d

/-- The dtype of the result, src/ops/dispatch.rs:924-966, 2172, src/ops/ufunc.rs:142. -/
def storedType (f : MathFn) (d : DType) : DType :=
  if handles (kernelGroup f) d && decide (kernelGroup f = .predicate) then .bool else d

/-- One element of the result. -/
def mathElem (lib : Libm) (neg : Bool) (f : MathFn) (d : DType) (x : Elem) : Elem :=
  if handles (kernelGroup f) d then kernelElem lib neg f d x else traitElem lib f d x

/-- The element makes a build with overflow checks panic: `v.abs()` (src/ops/kernels/math.rs:399, datetime64.rs:171, 347) and
`-v` (datetime64.rs:170, 346) of the least number. -/
def mathPanics (f : MathFn) (d : DType) : Elem → Bool
  | .int v => match d.intRange with
    | some (lo, _) => decide (lo < 0) && decide (v = lo) && (decide (f = .abs) || (decide (f = .neg) && !DType.isSigned d))
    | none => false
  | _ => false

/-- `map_unary_op` once the array has a dtype that needs no conversion, src/ops/ufunc.rs:81-157. -/
def mathDirect (checked : Bool) (lib : Libm) (neg : Bool) (f : MathFn) (d : DType) (h : Held Elem) : Outcome (DType × Arr Elem) :=
  if DType.isComplex d && (decide (f = .floor) || decide (f = .ceil)) then .error
  else if checked && h.view.addrs.any (fun a => mathPanics f d (h.mem a)) then .panic
  else if handles (kernelGroup f) d then
    .ok (storedType f d, mapUnary (kernelElem lib neg f d) h.mem h.view (zeroElem (storedType f d)))
  else .ok (d, mapUnaryFallback (traitElem lib f d) h.mem h.view (zeroElem d))

/-- `map_unary_op`, src/ops/ufunc.rs:63-158. -/
def mathOp (checked : Bool) (lib : Libm) (neg : Bool) (f : MathFn) (d : DType) (h : Held Elem) : Outcome (DType × Arr Elem) :=
  if isTranscendental f && !(DType.isFloat d || DType.isComplex d) then
    mathDirect checked lib neg f (floatTarget d)
      (Held.of (astype d (floatTarget d) h) (DType.itemsize (floatTarget d)) (zeroElem (floatTarget d)))
  else mathDirect checked lib neg f d h

/-- What a function of one argument gives a caller for a Python number (src/python/ufuncs.rs:132-170): always a float. -/
def mathScalar (lib : Libm) (f : MathFn) (x : Flt ℚ) : Flt ℚ :=
  let answer := fun b : Bool => if b then Flt.num (1 : ℚ) else .num 0
  match f with
  | .sign => if fltLt (.num 0) x then .num 1 else if fltLt x (.num 0) then .num (-1) else .num 0
  | .isnan | .isinf | .isfinite | .isneginf | .isposinf => answer (floatTest false f x)
  | .isreal => .num 1
  | .iscomplex => .num 0
  | .floor => fltFloor x
  | .ceil => fltCeil x
  | f => lib.double f x

end Rumpy
