import Mathlib.Data.Rat.Defs
import Mathlib.Algebra.Order.Ring.Rat
/-!
# Specification: dtypes and the values they hold
-/

namespace Spec

/-- Time units of datetime64 and timedelta64. -/
inductive TimeUnit
  | Y | M | W | D | h | m | s | ms | us | ns
deriving DecidableEq, Repr

/-- The dtypes: floats, integers, bool, dates and durations with a unit, complex numbers, strings
with a length. -/
inductive DType
  | f16 | f32 | f64
  | i8 | i16 | i32 | i64
  | u8 | u16 | u32 | u64
  | bool
  | datetime (u : TimeUnit) | timedelta (u : TimeUnit)
  | c64 | c128
  | str (n : Nat) | bytes (n : Nat)
deriving DecidableEq, Repr

/-- Binary floating-point numbers with `p` significant bits and exponents of the last bit from
`lo` to `hi`. -/
def IsFloat (p : Nat) (lo hi : Int) (x : ℚ) : Prop := ∃ m e : Int, |m| < 2 ^ p ∧ lo ≤ e ∧ e ≤ hi ∧ x = m * (2 : ℚ) ^ e

/-- Integers from `lo` to `hi`. -/
def IsInt (lo hi : Int) (x : ℚ) : Prop := ∃ n : Int, lo ≤ n ∧ n ≤ hi ∧ x = n

/-- The finite numbers (real part, imaginary part) a dtype can store. -/
def Holds : DType → ℚ × ℚ → Prop
  | .bool, z => IsInt 0 1 z.1 ∧ z.2 = 0
  | .i8, z => IsInt (-2 ^ 7) (2 ^ 7 - 1) z.1 ∧ z.2 = 0
  | .i16, z => IsInt (-2 ^ 15) (2 ^ 15 - 1) z.1 ∧ z.2 = 0
  | .i32, z => IsInt (-2 ^ 31) (2 ^ 31 - 1) z.1 ∧ z.2 = 0
  | .i64, z => IsInt (-2 ^ 63) (2 ^ 63 - 1) z.1 ∧ z.2 = 0
  | .u8, z => IsInt 0 (2 ^ 8 - 1) z.1 ∧ z.2 = 0
  | .u16, z => IsInt 0 (2 ^ 16 - 1) z.1 ∧ z.2 = 0
  | .u32, z => IsInt 0 (2 ^ 32 - 1) z.1 ∧ z.2 = 0
  | .u64, z => IsInt 0 (2 ^ 64 - 1) z.1 ∧ z.2 = 0
  | .f16, z => IsFloat 11 (-24) 5 z.1 ∧ z.2 = 0
  | .f32, z => IsFloat 24 (-149) 104 z.1 ∧ z.2 = 0
  | .f64, z => IsFloat 53 (-1074) 971 z.1 ∧ z.2 = 0
  | .c64, z => IsFloat 24 (-149) 104 z.1 ∧ IsFloat 24 (-149) 104 z.2
  | .c128, z => IsFloat 53 (-1074) 971 z.1 ∧ IsFloat 53 (-1074) 971 z.2
  | _, _ => False

/-- Numeric dtypes. -/
def DType.Numeric : DType → Prop
  | .datetime _ | .timedelta _ | .str _ | .bytes _ => False
  | _ => True

instance : DecidablePred DType.Numeric := fun k => by cases k <;> unfold DType.Numeric <;> infer_instance

/-- Every number `a` can store, `b` can store. -/
def Fits (a b : DType) : Prop := ∀ z, Holds a z → Holds b z

/-- Numeric dtypes from the simplest to the most general: first by category, then by size. -/
def numericOrder : List DType := [.bool, .u8, .i8, .u16, .i16, .u32, .i32, .u64, .i64, .f16, .f32, .f64, .c64, .c128]

end Spec
