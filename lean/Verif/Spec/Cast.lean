import Verif.Spec.DType
import Verif.Spec.Compare
/-!
# Specification: elements of each dtype and the numbers they stand for
-/

namespace Spec

/-- One array element. Dates and durations are counts of their unit. -/
inductive Elem where
  | bool (b : Bool)
  | int (n : Int)
  | flt (x : Flt ℚ)
  | cpx (re im : Flt ℚ)
  | text (s : List Char)
  deriving DecidableEq, Repr

/-- The finite number (real part, imaginary part) an element stands for, if it does. -/
def Elem.number : Elem → Option (ℚ × ℚ)
  | .bool b => some (if b then 1 else 0, 0)
  | .int n => some (n, 0)
  | .flt (.num x) => some (x, 0)
  | .cpx (.num x) (.num y) => some (x, y)
  | _ => none

/-- A float of a format is one of its numbers, an infinity or NaN. -/
def IsFlt (p : Nat) (lo hi : Int) : Flt ℚ → Prop
  | .num x => IsFloat p lo hi x
  | _ => True

/-- The integers of an integer dtype (dates and durations are 64-bit). -/
def DType.intRange : DType → Option (Int × Int)
  | .i8 => some (-2 ^ 7, 2 ^ 7 - 1)
  | .i16 => some (-2 ^ 15, 2 ^ 15 - 1)
  | .i32 => some (-2 ^ 31, 2 ^ 31 - 1)
  | .i64 | .datetime _ | .timedelta _ => some (-2 ^ 63, 2 ^ 63 - 1)
  | .u8 => some (0, 2 ^ 8 - 1)
  | .u16 => some (0, 2 ^ 16 - 1)
  | .u32 => some (0, 2 ^ 32 - 1)
  | .u64 => some (0, 2 ^ 64 - 1)
  | _ => none

/-- Significant bits and smallest and largest exponent of the last bit of a float format; for a
complex dtype, of its parts. -/
def DType.format : DType → Option (Nat × Int × Int)
  | .f16 => some (11, -24, 5)
  | .f32 | .c64 => some (24, -149, 104)
  | .f64 | .c128 => some (53, -1074, 971)
  | _ => none

/-- The element can be stored in an array of the dtype. -/
def Elem.OfType : DType → Elem → Prop
  | .bool, .bool _ => True
  | .str n, .text s => s.length ≤ n
  | .bytes n, .text s => s.length ≤ n
  | .c64, .cpx x y => IsFlt 24 (-149) 104 x ∧ IsFlt 24 (-149) 104 y
  | .c128, .cpx x y => IsFlt 53 (-1074) 971 x ∧ IsFlt 53 (-1074) 971 y
  | .f16, .flt x => IsFlt 11 (-24) 5 x
  | .f32, .flt x => IsFlt 24 (-149) 104 x
  | .f64, .flt x => IsFlt 53 (-1074) 971 x
  | d, .int n => ∃ lo hi, d.intRange = some (lo, hi) ∧ lo ≤ n ∧ n ≤ hi
  | _, _ => False

/-- `n` is `q` with its fraction dropped. -/
def IsTrunc (q : ℚ) (n : Int) : Prop := |(n : ℚ)| ≤ |q| ∧ |q - n| < 1 ∧ 0 ≤ q * n

/-- The real and imaginary part of an element that is not text. -/
def Elem.parts : Elem → Option (Flt ℚ × Flt ℚ)
  | .bool b => some (.num (if b then 1 else 0), .num 0)
  | .int n => some (.num n, .num 0)
  | .flt x => some (x, .num 0)
  | .cpx x y => some (x, y)
  | .text _ => none

/-- `y` is `x` rounded to a format: a nearest number of it, an infinity only for what lies beyond
all its numbers; NaN and the infinities stay. -/
def IsRounding (p : Nat) (lo hi : Int) : Flt ℚ → Flt ℚ → Prop
  | .num q, .num r => IsFloat p lo hi r ∧ ∀ t, IsFloat p lo hi t → |q - r| ≤ |q - t|
  | .num q, .posInf => ∀ t, IsFloat p lo hi t → t < q
  | .num q, .negInf => ∀ t, IsFloat p lo hi t → q < t
  | .num _, .nan => False
  | x, y => x = y

/-- What NumPy promises of converting the number `x` to the dtype `b` with result `y`. -/
structure Converts (b : DType) (x y : Elem) : Prop where
  /-- The result can be stored. -/
  typed : y.OfType b
  /-- A number the dtype can store is kept. -/
  exact : ∀ z, x.number = some z → Holds b z → y.number = some z
  /-- Floats are rounded to the nearest; complex numbers part by part. -/
  float : ∀ p lo hi u v, b.format = some (p, lo, hi) → x.parts = some (u, v) →
    ∃ u' v', y.parts = some (u', v') ∧ IsRounding p lo hi u u' ∧ (b = .c64 ∨ b = .c128 → IsRounding p lo hi v v')
  /-- A float becomes an integer by dropping its fraction. -/
  trunc : ∀ q lo hi n, x = .flt (.num q) → b.intRange = some (lo, hi) → IsTrunc q n → lo ≤ n → n ≤ hi → y = .int n
  /-- An integer becomes an integer of another width modulo the number of its values. -/
  wrap : ∀ n lo hi, x = .int n → b.intRange = some (lo, hi) → ∃ m, y = .int m ∧ (hi - lo + 1) ∣ (m - n)
  /-- Everything but zero is true. -/
  truth : b = .bool → (y = .bool false ↔ x.number = some (0, 0))

/-- The dtype holds real numbers: bool, integers and floats. -/
def DType.Real : DType → Prop
  | .datetime _ | .timedelta _ | .str _ | .bytes _ | .c64 | .c128 => False
  | _ => True

instance : DecidablePred DType.Real := fun k => by cases k <;> unfold DType.Real <;> infer_instance

end Spec
