import Mathlib.Analysis.SpecialFunctions.Log.Base
import Mathlib.Analysis.SpecialFunctions.Pow.Real
import Verif.Spec.Binary
import Verif.Model.Compare
import Verif.Model.Cast
import Verif.Model.Special
import Verif.Model.RoundClip
/-!
# Model: element operations on floats and bools

A float is its exact value and every operation rounds to the format, given by the significant bits `p` and the range
`lo..hi` of the exponent of the last bit.  The two zeros are one value; where the sign of a zero divisor matters it is a
parameter.  `logaddexp` is treated on exact real numbers, `nextafter` on bit patterns.
-/

namespace Rumpy
open Spec

/-- Rust's `a + b`. -/
def fltAdd (p : Nat) (lo hi : Int) : Flt ℚ → Flt ℚ → Flt ℚ
  | .nan, _ => .nan
  | _, .nan => .nan
  | .num x, .num y => roundBin p lo hi (x + y)
  | .posInf, .negInf => .nan
  | .negInf, .posInf => .nan
  | .posInf, _ => .posInf
  | .negInf, _ => .negInf
  | _, .posInf => .posInf
  | _, .negInf => .negInf

/-- Rust's `a / b`; `neg`: the divisor is `-0.0` (used only if it is zero). -/
def fltDiv (p : Nat) (lo hi : Int) (neg : Bool) : Flt ℚ → Flt ℚ → Flt ℚ
  | .nan, _ => .nan
  | _, .nan => .nan
  | .num x, .num y =>
    if y = 0 then
      if x = 0 then .nan else if decide (x < 0) = neg then .posInf else .negInf
    else roundBin p lo hi (x / y)
  | .num _, _ => .num 0
  | .posInf, .num y => if y < 0 ∨ (y = 0 ∧ neg = true) then .negInf else .posInf
  | .negInf, .num y => if y < 0 ∨ (y = 0 ∧ neg = true) then .posInf else .negInf
  | _, _ => .nan

/-- Rust's `a % b`: the exact remainder with the sign of `a` (it is always a number of the format). -/
def fltRem : Flt ℚ → Flt ℚ → Flt ℚ
  | .num x, .num y => if y = 0 then .nan else .num (x - y * ((if 0 ≤ x / y then ⌊x / y⌋ else ⌈x / y⌉ : Int) : ℚ))
  | .num x, .posInf => .num x
  | .num x, .negInf => .num x
  | _, _ => .nan

/-- Rust's `floor`. -/
def fltFloor : Flt ℚ → Flt ℚ
  | .num x => .num ⌊x⌋
  | x => x

/-- Rust's `is_nan`. -/
def fltIsNan {K : Type} : Flt K → Bool
  | .nan => true
  | _ => false

/-- Rust's `a.max(b)`: ignores a NaN. -/
def fltMax {K : Type} [LT K] [DecidableLT K] (a b : Flt K) : Flt K :=
  if fltIsNan a then b else if fltIsNan b then a else if fltLt a b then b else a

/-- Rust's `a.min(b)`: ignores a NaN. -/
def fltMin {K : Type} [LT K] [DecidableLT K] (a b : Flt K) : Flt K :=
  if fltIsNan a then b else if fltIsNan b then a else if fltLt b a then b else a

/-- The operations of `BinaryOp` treated with rounding. -/
inductive FltOp
  | add | sub | mul | div | mod | floorDiv | maximum | minimum | fmax | fmin
deriving DecidableEq, Repr

/-- The kernels of `f64` and `f32` (src/ops/kernels/arithmetic.rs:94-109, 144-165, 174-185).  `binary_op`
(src/array/dtype/macros.rs:95-109) has the same formulas. -/
def floatKernel (p : Nat) (lo hi : Int) (neg : Bool) (op : FltOp) (a b : Flt ℚ) : Flt ℚ :=
  match op with
  | .add => fltAdd p lo hi a b
  | .sub => fltSub p lo hi a b
  | .mul => fltMul p lo hi a b
  | .div => fltDiv p lo hi neg a b
  | .mod => fltRem a b
  | .floorDiv => fltFloor (fltDiv p lo hi neg a b)
  | .maximum => if fltIsNan a || fltIsNan b then .nan else fltMax a b
  | .minimum => if fltIsNan a || fltIsNan b then .nan else fltMin a b
  | .fmax => if fltIsNan b then a else if fltIsNan a then b else fltMax a b
  | .fmin => if fltIsNan b then a else if fltIsNan a then b else fltMin a b

/-- The kernels of `f16` (src/ops/kernels/arithmetic.rs:269-284, 319-342, 351-366): computed in `f32`, then rounded.
`binary_op` (src/array/dtype/float16.rs:90-107, 133) has the same formulas. -/
def halfKernel (neg : Bool) (op : FltOp) (a b : Flt ℚ) : Flt ℚ :=
  toFormat 11 (-24) 5 (floatKernel 24 (-149) 104 neg op a b)

/-- One element of an operation on two different real dtypes (src/ops/ufunc.rs:415-431, 455): computed in `f64`, with NaN
for a division by zero, then stored in the result dtype. -/
def mixedKernel (p : Nat) (lo hi : Int) (neg : Bool) (op : FltOp) (a b : Flt ℚ) : Flt ℚ :=
  toFormat p lo hi
    (if op = .div then (if fltEq b (.num 0) then .nan else floatKernel 53 (-1074) 971 neg .div a b)
      else floatKernel 53 (-1074) 971 neg op a b)

/-- `divmod` (src/python/ufuncs.rs:963-971), one element. -/
def divmodKernel (p : Nat) (lo hi : Int) (neg : Bool) (a b : Flt ℚ) : Flt ℚ × Flt ℚ :=
  (floatKernel p lo hi neg .floorDiv a b, floatKernel p lo hi neg .mod a b)

/-- The kernel `Sign` of the floats (src/ops/kernels/math.rs:197-202, 335-341). -/
def fltSign (v : Flt ℚ) : Flt ℚ :=
  if fltIsNan v then v else if fltLt (.num 0) v then .num 1 else if fltLt v (.num 0) then .num (-1) else .num 0

/-- The kernel `Rint` of the floats (src/ops/kernels/math.rs:231-234, 370-373). -/
def fltRint : Flt ℚ → Flt ℚ
  | .num q => .num (roundAway q : Int)
  | x => x

/-! ### `logaddexp` on real numbers -/

/-- Subtraction, absolute value, negation, `exp`, `ln_1p` and `ln` of floats over the real numbers. -/
noncomputable def realSub : Flt ℝ → Flt ℝ → Flt ℝ
  | .nan, _ => .nan
  | _, .nan => .nan
  | .num x, .num y => .num (x - y)
  | .posInf, .posInf => .nan
  | .negInf, .negInf => .nan
  | .posInf, _ => .posInf
  | .negInf, _ => .negInf
  | _, .posInf => .negInf
  | _, .negInf => .posInf

noncomputable def realAdd : Flt ℝ → Flt ℝ → Flt ℝ
  | .nan, _ => .nan
  | _, .nan => .nan
  | .num x, .num y => .num (x + y)
  | .posInf, .negInf => .nan
  | .negInf, .posInf => .nan
  | .posInf, _ => .posInf
  | .negInf, _ => .negInf
  | _, .posInf => .posInf
  | _, .negInf => .negInf

noncomputable def realNegAbs : Flt ℝ → Flt ℝ
  | .num x => .num (-|x|)
  | .nan => .nan
  | _ => .negInf

/-- A function of the real numbers with its limit at minus infinity; only used there and on numbers. -/
noncomputable def realMap (f : ℝ → ℝ) (atNegInf : ℝ) : Flt ℝ → Flt ℝ
  | .num x => .num (f x)
  | .negInf => .num atNegInf
  | x => x

/-- Rust's `is_infinite`. -/
def fltIsInf {K : Type} : Flt K → Bool
  | .posInf => true
  | .negInf => true
  | _ => false

open Classical in
/-- Rust's `a.max(b)` over the real numbers. -/
noncomputable def realMax (a b : Flt ℝ) : Flt ℝ := fltMax a b

/-- The kernel `Logaddexp` (src/ops/kernels/arithmetic.rs:190-196, 371-379). -/
noncomputable def logaddexpKernel (a b : Flt ℝ) : Flt ℝ :=
  let m := realMax a b
  if fltIsInf m then m
  else realAdd m (realMap (fun x => Real.log (1 + x)) 0 (realMap Real.exp 0 (realNegAbs (realSub a b))))

/-- The kernel `Logaddexp2` (src/ops/kernels/arithmetic.rs:197-203, 380-388). -/
noncomputable def logaddexp2Kernel (a b : Flt ℝ) : Flt ℝ :=
  let m := realMax a b
  if fltIsInf m then m
  else realAdd m (realMap (fun x => Real.log (1 + x) / Real.log 2) 0 (realMap (fun x => (2 : ℝ) ^ x) 0 (realNegAbs (realSub a b))))

/-- `Logaddexp` for different dtypes (src/ops/ufunc.rs:433-436). -/
noncomputable def logaddexpMixed (a b : Flt ℝ) : Flt ℝ :=
  let m := realMax a b
  if fltIsInf m then m
  else realAdd m (realMap (fun x => Real.log (1 + x)) 0 (realMap Real.exp 0 (realNegAbs (realSub a b))))

/-- `Logaddexp2` for different dtypes (src/ops/ufunc.rs:437-441). -/
noncomputable def logaddexp2Mixed (a b : Flt ℝ) : Flt ℝ :=
  let m := realMax a b
  if fltIsInf m then m
  else realAdd m (realMap (fun x => Real.log (1 + x) / Real.log 2) 0
    (realMap (fun x => Real.exp (x * Real.log 2)) 0 (realNegAbs (realSub a b))))

/-! ### `nextafter` on bit patterns -/

/-- The pattern of `NAN`. -/
def nanPattern (F : BinFormat) : Nat := (2 ^ F.e - 1) * 2 ^ F.f + 2 ^ (F.f - 1)

/-- The kernel `Nextafter` (src/ops/kernels/arithmetic.rs:204-212, 389-397). -/
def nextafterKernel (F : BinFormat) (a b : Nat) : Nat :=
  if fltEq (F.value a) (F.value b) then b
  else if fltIsNan (F.value a) || fltIsNan (F.value b) then nanPattern F
  else if fltLt (F.value a) (F.value b) then (a + 1) % 2 ^ (1 + F.e + F.f)
  else (a + (2 ^ (1 + F.e + F.f) - 1)) % 2 ^ (1 + F.e + F.f)

/-- `Nextafter` for different dtypes (src/ops/ufunc.rs:442-452) on the two `f64`; `binary_op`
(src/array/dtype/macros.rs:122-139) is the same.  The sums and differences of bits stay in range. -/
def nextafterMixed (F : BinFormat) (a b : Nat) : Nat :=
  if fltIsNan (F.value a) || fltIsNan (F.value b) then nanPattern F
  else if fltEq (F.value a) (F.value b) then b
  else if fltLt (F.value a) (F.value b) then
    if fltLt (.num 0) (F.value a) || fltEq (F.value a) (.num 0) then a + 1 else a - 1
  else if fltLt (.num 0) (F.value a) then a - 1 else a + 1

/-! ### `bool` -/

/-- The operations of `BinaryOp` on bools. -/
inductive BoolOp
  | add | sub | mul | div | pow | mod | floorDiv | maximum | minimum
deriving DecidableEq, Repr

/-- `binary_op` of the dtype bool (src/array/dtype/bool.rs:51-71). -/
def boolBinary : BoolOp → Bool → Bool → Bool
  | .add, a, b => a || b
  | .sub, a, b => a && !b
  | .mul, a, b => a && b
  | .div, a, _ => a
  | .pow, a, _ => a
  | .mod, a, _ => a
  | .floorDiv, a, _ => a
  | .maximum, a, b => a || b
  | .minimum, a, b => a && b

end Rumpy
