import Mathlib.Data.Rat.Floor
import Verif.Spec.Cast
/-!
# Specification: result types and values of the functions of one array
-/

namespace Spec

/-- The functions of one array. -/
inductive MathFn
  | neg | abs | sqrt | exp | log | log10 | log2 | sin | cos | tan | sinh | cosh | tanh | floor | ceil | arcsin | arccos | arctan
  | sign | isnan | isinf | isfinite | square | positive | reciprocal | exp2 | expm1 | log1p | cbrt | trunc | rint
  | arcsinh | arccosh | arctanh | signbit | isneginf | isposinf | isreal | iscomplex
deriving DecidableEq, Repr

/-- Functions whose values are fractions even at whole numbers, and `rint`, for which NumPy has float versions only. -/
def MathFn.floating : MathFn → Bool
  | .sqrt | .exp | .log | .log10 | .log2 | .sin | .cos | .tan | .sinh | .cosh | .tanh | .arcsin | .arccos | .arctan
  | .exp2 | .expm1 | .log1p | .cbrt | .rint | .arcsinh | .arccosh | .arctanh => true
  | _ => false

/-- Functions that answer yes or no. -/
def MathFn.test : MathFn → Bool
  | .isnan | .isinf | .isfinite | .signbit | .isneginf | .isposinf | .isreal | .iscomplex => true
  | _ => false

/-- The smallest float dtype NumPy has a loop for: one byte goes to `float16`, two to `float32`, more to `float64`; floats and
complex numbers stay. -/
def DType.floatOf : DType → Option DType
  | .bool | .i8 | .u8 | .f16 => some .f16
  | .i16 | .u16 | .f32 => some .f32
  | .i32 | .u32 | .i64 | .u64 | .f64 => some .f64
  | .c64 => some .c64
  | .c128 => some .c128
  | _ => none

/-- NumPy's result dtype for arrays of bools and numbers; `none`: NumPy raises. -/
def mathType (f : MathFn) (d : DType) : Option DType :=
  if f.floating then (if f = .cbrt ∧ (d = .c64 ∨ d = .c128) then none else d.floatOf)
  else if f.test then
    (if (f = .signbit ∨ f = .isneginf ∨ f = .isposinf) ∧ (d = .c64 ∨ d = .c128) then none else some .bool)
  else match f, d with
    | .abs, .c64 => some .f32
    | .abs, .c128 => some .f64
    | .floor, .c64 | .floor, .c128 | .ceil, .c64 | .ceil, .c128 | .trunc, .c64 | .trunc, .c128 => none
    | .neg, .bool | .positive, .bool | .sign, .bool => none
    | .square, .bool | .reciprocal, .bool => some .i8
    | _, d => some d

/-- The exact value at a whole number of the functions that keep whole numbers whole. -/
def MathFn.whole : MathFn → Option (Int → Int)
  | .neg => some fun n => -n
  | .abs => some fun n => |n|
  | .square => some fun n => n * n
  | .sign => some Int.sign
  | .positive | .floor | .ceil | .trunc => some id
  | _ => none

/-- The exact value at a number of the functions whose value at a float is again a float of the same format. -/
def MathFn.exactAt : MathFn → Option (ℚ → ℚ)
  | .neg => some fun q => -q
  | .abs => some fun q => |q|
  | .floor => some fun q => (⌊q⌋ : Int)
  | .ceil => some fun q => (⌈q⌉ : Int)
  | .trunc => some fun q => ((if 0 ≤ q then ⌊q⌋ else ⌈q⌉ : Int) : ℚ)
  | .positive => some id
  | .sign => some fun q => if 0 < q then 1 else if q < 0 then -1 else 0
  | _ => none

/-- Their value at positive infinity. -/
def MathFn.atInf : MathFn → Flt ℚ
  | .neg => .negInf
  | .sign => .num 1
  | _ => .posInf

/-- Their value at negative infinity. -/
def MathFn.atNegInf : MathFn → Flt ℚ
  | .neg | .abs => .posInf
  | .sign => .num (-1)
  | _ => .negInf

/-- The answer of a test at a float; a sign bit is that of the number (the sign of zero and of NaN is not represented). -/
def MathFn.Answer : MathFn → Flt ℚ → Prop
  | .isnan, x => x = .nan
  | .isinf, x => x = .posInf ∨ x = .negInf
  | .isfinite, x => ∃ q, x = .num q
  | .isneginf, x => x = .negInf
  | .isposinf, x => x = .posInf
  | .signbit, x => x = .negInf ∨ ∃ q < 0, x = .num q
  | .isreal, _ => True
  | _, _ => False

end Spec
