import Verif.Spec.Binary
import Verif.Model.Cast
import Verif.Model.Gcd
/-!
# Model: `frexp`, `ldexp`, `modf`, `spacing`, `heaviside` (src/ops/special.rs)

The functions for `f32` and `f64` are the same with other constants, so the format is a parameter.  A float that is
taken apart is its bit pattern, a number; masks and shifts are division and remainder by powers of two.  Elsewhere a
float is its exact value and every operation rounds to the format.
-/

namespace Rumpy
open Spec

/-- `frexp_scalar_f64` (src/ops/special.rs:296-314) and `frexp_scalar_f32` (316-334).  `times` is the multiplication by
`2^52` or `2^23` (lines 306, 326).  The recursion has fuel; `none` means that it runs out. -/
def frexpScalar (F : BinFormat) (times : Nat → Nat) : Nat → Nat → Option (Nat × Int)
  | 0, _ => none
  | n + 1, b =>
    if F.expo b = 2 ^ F.e - 1 ∨ (F.expo b = 0 ∧ F.frac b = 0) then some (b, 0)
    else if F.expo b = 0 then
      match frexpScalar F times n (times b) with
      | some (m, e) => some (m, e - F.f)
      | none => none
    else some (F.sign b * 2 ^ (F.e + F.f) + (F.bias - 1) * 2 ^ F.f + F.frac b, (F.expo b : Int) - ((F.bias - 1 : Nat) : Int))

/-- The next pattern, src/ops/special.rs:134-140 and 160-166. -/
def nextPattern (F : BinFormat) (b : Nat) : Nat :=
  if fltLt (.num 0) (F.value b) || fltEq (F.value b) (.num 0) then (b + 1) % 2 ^ (1 + F.e + F.f)
  else if b = 2 ^ (F.e + F.f) then 1
  else (b + (2 ^ (1 + F.e + F.f) - 1)) % 2 ^ (1 + F.e + F.f)

/-- Subtraction of floats, rounded to a format. -/
def fltSub (p : Nat) (lo hi : Int) : Flt ℚ → Flt ℚ → Flt ℚ
  | .nan, _ => .nan
  | _, .nan => .nan
  | .num x, .num y => roundBin p lo hi (x - y)
  | .posInf, .posInf => .nan
  | .negInf, .negInf => .nan
  | .posInf, _ => .posInf
  | .negInf, _ => .negInf
  | _, .posInf => .negInf
  | _, .negInf => .posInf

/-- `abs` of a float. -/
def fltAbs : Flt ℚ → Flt ℚ
  | .num x => .num |x|
  | .negInf => .posInf
  | x => x

/-- One round of `spacing_f64` (src/ops/special.rs:133-141) and `spacing_f32` (159-167). -/
def spacingScalar (F : BinFormat) (b : Nat) : Flt ℚ :=
  fltAbs (fltSub F.precision F.minExp F.maxExp (F.value (nextPattern F b)) (F.value b))

/-- `trunc` of a float. -/
def fltTrunc : Flt ℚ → Flt ℚ
  | .num x => .num (if 0 ≤ x then ⌊x⌋ else ⌈x⌉ : Int)
  | x => x

/-- One round of `modf_typed`, src/ops/special.rs:208-210: fraction and integer part. -/
def modfScalar (p : Nat) (lo hi : Int) (x : Flt ℚ) : Flt ℚ × Flt ℚ := (fltSub p lo hi x (fltTrunc x), fltTrunc x)

/-- Multiplication of floats, rounded to a format. -/
def fltMul (p : Nat) (lo hi : Int) : Flt ℚ → Flt ℚ → Flt ℚ
  | .nan, _ => .nan
  | _, .nan => .nan
  | .num x, .num y => roundBin p lo hi (x * y)
  | .num x, .posInf => if x = 0 then .nan else if 0 < x then .posInf else .negInf
  | .num x, .negInf => if x = 0 then .nan else if 0 < x then .negInf else .posInf
  | .posInf, .num y => if y = 0 then .nan else if 0 < y then .posInf else .negInf
  | .negInf, .num y => if y = 0 then .nan else if 0 < y then .negInf else .posInf
  | .posInf, .posInf => .posInf
  | .negInf, .negInf => .posInf
  | .posInf, .negInf => .negInf
  | .negInf, .posInf => .negInf

/-- One round of `ldexp_typed`, src/ops/special.rs:381-382; `powi` is the power of two of the standard library. -/
def ldexpScalar (p : Nat) (lo hi : Int) (powi : Int → Flt ℚ) (x : Flt ℚ) (i : Int) : Flt ℚ := fltMul p lo hi x (powi i)

/-- The exponent as `i32`, src/ops/special.rs:372. -/
def exponentOf (i : Int) : Int := Int.bmod i (2 ^ 32)

/-- One round of `heaviside_typed`, src/ops/special.rs:421-427. -/
def heavisideScalar (x h0 : Flt ℚ) : Flt ℚ :=
  if fltLt x (.num 0) then .num 0 else if fltEq x (.num 0) then h0 else .num 1

/-- The loops over one array: src/ops/special.rs:38-48, 78-83, 131-142, 157-168, 206-215, 253-261, 284-292: elements are
read one after the other from the data pointer. -/
def rawMap {α β : Type} (f : α → β) (mem : Int → α) (v : View) : Arr β :=
  { shape := v.shape
    data := (List.range (sizeOf v.shape)).map fun i : Nat => f (mem (v.offset + (i : Int) * v.item)) }

/-- `ldexp_typed` for exponents of `int32` or `int64`, src/ops/special.rs:351-386; `conv` is the cast to `i32`. -/
def ldexpLoop {α β γ : Type} (f : α → Int → γ) (conv : β → Int) (memX : Int → α) (memI : Int → β) (x i : View) : Arr γ :=
  { shape := x.shape
    data := (List.range (sizeOf x.shape)).map fun k : Nat =>
      f (memX (x.offset + (k : Int) * x.item)) (conv (memI (i.offset + (k : Int) * i.item))) }

end Rumpy
