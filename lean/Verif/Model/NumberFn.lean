import Verif.Model.Ufunc
/-!
# Model: functions of one Python number (src/python/ufuncs.rs)
-/

namespace Rumpy
open Spec

/-- `if test { 1.0 } else { 0.0 }`. -/
def oneIf (b : Bool) : Flt ℚ := if b then .num 1 else .num 0

/-- The functions given as `scalar_op` to `apply_unary` (src/python/ufuncs.rs:28-46), src/python/ufuncs.rs:52-170, 273-353.  `pow2`
stands for `2.0_f64.powf`; a zero or NaN argument of `signbit` and a zero divisor have the sign `neg`. -/
def numberFn (lib : Libm) (pow2 : Flt ℚ → Flt ℚ) (neg : Bool) (f : MathFn) (v : Flt ℚ) : Flt ℚ :=
  match f with
  | .sign => if fltLt (.num 0) v then .num 1 else if fltLt v (.num 0) then .num (-1) else .num 0
  | .isnan => oneIf (fltIsNan v)
  | .isinf => oneIf (fltIsInf v)
  | .isfinite => oneIf (!fltIsNan v && !fltIsInf v)
  | .isneginf => oneIf (match v with | .negInf => true | _ => false)
  | .isposinf => oneIf (match v with | .posInf => true | _ => false)
  | .isreal => .num 1
  | .iscomplex => .num 0
  | .abs => fltAbs v
  | .square => fltMul 53 (-1074) 971 v v
  | .positive => v
  | .neg => fltNegate v
  | .reciprocal => fltDiv 53 (-1074) 971 neg (.num 1) v
  | .exp2 => pow2 v
  | .trunc => fltTrunc v
  | .rint => fltRint v
  | .floor => fltFloor v
  | .ceil => fltCeil v
  | .signbit => oneIf (match v with | .num q => if q = 0 then neg else decide (q < 0) | .nan => neg | .negInf => true | .posInf => false)
  | f => lib.double f v

/-- `apply_unary` of a number that is not an array (src/python/ufuncs.rs:40-46): a Python integer is read as a double, a complex number is
refused. -/
def ofNumber (lib : Libm) (pow2 : Flt ℚ → Flt ℚ) (neg : Bool) (f : MathFn) : Elem → Option (Flt ℚ)
  | .flt v => some (numberFn lib pow2 neg f v)
  | .int n => some (numberFn lib pow2 neg f (.num (intToF64 n)))
  | .bool b => some (numberFn lib pow2 neg f (oneIf b))
  | _ => none

end Rumpy
