import Mathlib.Data.Int.Log
import Mathlib.Data.Rat.Floor
import Verif.Spec.Cast
import Verif.Model.Compare
import Verif.Model.Calendar
import Verif.Model.DType
/-!
# Model: `astype` between dtypes (src/array/mod.rs, src/array/dtype)

A float is its exact value; the conversions to a narrower format round to the nearest value, ties
to even.
-/

namespace Rumpy
open Spec

/-- Nearest integer, ties to even. -/
def roundEven (q : ℚ) : Int :=
  let f := ⌊q⌋
  let r := q - f
  if r < 1 / 2 then f else if 1 / 2 < r then f + 1 else if f % 2 = 0 then f else f + 1

/-- Rounding of a number to a binary format with `p` significant bits and exponents of the last bit
from `lo` to `hi` (IEEE 754 round to nearest, ties to even; too large numbers become infinite): Rust's
`val as f32` (src/array/dtype/macros.rs:182-185) and `f16::from_f64` (src/array/dtype/float16.rs:174-177). -/
def roundBin (p : Nat) (lo hi : Int) (q : ℚ) : Flt ℚ :=
  let e := max lo (Int.log 2 |q| - p + 1)
  let r := roundEven (q / 2 ^ e) * (2 : ℚ) ^ e
  if (2 : ℚ) ^ (hi + p) ≤ r then .posInf else if r ≤ -(2 : ℚ) ^ (hi + p) then .negInf else .num r

/-- The conversion of a float to a format: NaN and the infinities stay. -/
def toFormat (p : Nat) (lo hi : Int) : Flt ℚ → Flt ℚ
  | .num q => roundBin p lo hi q
  | x => x

/-- `val as iN` / `val as uN` of Rust: drop the fraction, saturate, NaN becomes 0. -/
def fltToInt (lo hi : Int) : Flt ℚ → Int
  | .nan => 0
  | .negInf => lo
  | .posInf => hi
  | .num q => max lo (min hi (if 0 ≤ q then ⌊q⌋ else ⌈q⌉))

/-- `read_f64`: src/array/dtype/macros.rs:187-189, 369-371, 571-573, bool.rs:114-116,
float16.rs:179-181, datetime64.rs:248-250, 422-424; `None` for complex128.rs:411-414,
complex64.rs:408-411 and string.rs:202-204, 425-427. -/
def readF64 : Elem → Option (Flt ℚ)
  | .bool b => some (.num (if b then 1 else 0))
  | .int n => some (.num (intToF64 n))
  | .flt x => some x
  | .cpx _ _ => none
  | .text _ => none

/-- What `zeros` puts into an array of the dtype. -/
def zeroElem : DType → Elem
  | .bool => .bool false
  | .f16 | .f32 | .f64 => .flt (.num 0)
  | .c64 | .c128 => .cpx (.num 0) (.num 0)
  | .str _ | .bytes _ => .text []
  | _ => .int 0

/-- `write_f64` over a zero: src/array/dtype/macros.rs:182-185, 364-367, 566-569, bool.rs:109-112,
float16.rs:174-177, complex128.rs:406-409, complex64.rs:403-406, datetime64.rs:243-246, 417-420;
strings refuse and keep the zero (string.rs:198-200, 421-423). -/
def writeF64 (d : DType) (x : Flt ℚ) : Elem :=
  match d with
  | .bool => .bool (!fltEq x (.num 0))
  | .f64 => .flt x
  | .f32 => .flt (toFormat 24 (-149) 104 x)
  | .f16 => .flt (toFormat 11 (-24) 5 x)
  | .c128 => .cpx x (.num 0)
  | .c64 => .cpx (toFormat 24 (-149) 104 x) (.num 0)
  | .str n => zeroElem (.str n)
  | .bytes n => zeroElem (.bytes n)
  | d => match d.intRange with
    | some (lo, hi) => .int (fltToInt lo hi x)
    | none => .int 0

/-- The conversion of one element in `astype`, src/array/mod.rs:384-425. -/
def castElem (a b : DType) (x : Elem) : Elem :=
  if a = b then x
  else match a, b, x with
  | .datetime u, .datetime w, .int n => .int (convertDatetime n u w)
  | .timedelta u, .timedelta w, .int n => .int (convertDatetime n u w)
  | _, b, x => writeF64 b ((readF64 x).getD (.num 0))

/-- Both dtypes are dates or both are durations, src/array/mod.rs:394-416. -/
def bothTime : DType → DType → Bool
  | .datetime _, .datetime _ => true
  | .timedelta _, .timedelta _ => true
  | _, _ => false

/-- `astype`, src/array/mod.rs:354-427.  The loop for dates divides the byte offset by 8 and advances
an `i64` pointer by that many elements. -/
def astype (a b : DType) (h : Held Elem) : Arr Elem :=
  if a = b then copyArr (a = .f64 ∨ a = .i64) h.mem h.view (zeroElem b)
  else if bothTime a b then
    let size := sizeOf h.view.shape
    let blank := List.replicate size (zeroElem b)
    if size = 0 then ⟨h.view.shape, blank⟩
    else ⟨h.view.shape, writes (h.view.addrs.zipIdx.map fun oi =>
      (oi.2, castElem a b (h.mem (h.view.offset + (oi.1 - h.view.offset).tdiv 8 * 8)))) blank⟩
  else castArr (castElem a b) h.mem h.view (zeroElem b)

end Rumpy
