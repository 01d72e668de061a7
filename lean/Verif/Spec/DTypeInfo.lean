import Verif.Spec.DType
/-!
# Specification: questions about dtypes
-/

namespace Spec

def signedTypes : List DType := [.i8, .i16, .i32, .i64]
def unsignedTypes : List DType := [.u8, .u16, .u32, .u64]
def floatTypes : List DType := [.f16, .f32, .f64]
def complexTypes : List DType := [.c64, .c128]

/-- NumPy's scalar types that dtypes are asked for; `all` is `generic`. -/
inductive Category
  | integer | signedinteger | unsignedinteger | inexact | floating | complexfloating | number | bool | all
deriving DecidableEq, Repr

/-- The dtypes of numbers and truth values below a type in NumPy's hierarchy. -/
def Category.members : Category → List DType
  | .integer => signedTypes ++ unsignedTypes
  | .signedinteger => signedTypes
  | .unsignedinteger => unsignedTypes
  | .inexact => floatTypes ++ complexTypes
  | .floating => floatTypes
  | .complexfloating => complexTypes
  | .number => signedTypes ++ unsignedTypes ++ floatTypes ++ complexTypes
  | .bool => [.bool]
  | .all => signedTypes ++ unsignedTypes ++ floatTypes ++ complexTypes ++ [.bool]

/-- The name of the type in NumPy. -/
def Category.name : Category → String
  | .integer => "integer"
  | .signedinteger => "signedinteger"
  | .unsignedinteger => "unsignedinteger"
  | .inexact => "inexact"
  | .floating => "floating"
  | .complexfloating => "complexfloating"
  | .number => "number"
  | .bool => "bool_"
  | .all => "generic"

/-- The kinds of the array API standard and their dtypes. -/
def apiKinds : List (String × List DType) := [
  ("bool", [.bool]), ("signed integer", signedTypes), ("unsigned integer", unsignedTypes),
  ("integral", signedTypes ++ unsignedTypes), ("real floating", floatTypes), ("complex floating", complexTypes),
  ("numeric", signedTypes ++ unsignedTypes ++ floatTypes ++ complexTypes)]

/-- The precision NumPy's `common_type` gives a dtype: half, single or double; none for other dtypes. -/
def precisionOf : DType → Option Nat
  | .f16 => some 0
  | .f32 | .c64 => some 1
  | .f64 | .c128 => some 2
  | .i8 | .i16 | .i32 | .i64 | .u8 | .u16 | .u32 | .u64 => some 2
  | _ => none

/-- `t` is the common type of the dtypes `ds`: complex if one of them is, with the largest of the precisions. -/
def IsCommonType (ds : List DType) (t : DType) : Prop :=
  t ∈ floatTypes ++ complexTypes ∧
  (t ∈ complexTypes ↔ ∃ d ∈ ds, d ∈ complexTypes) ∧
  ∃ p, precisionOf t = some p ∧ (∃ d ∈ ds, precisionOf d = some p) ∧ ∀ d ∈ ds, ∃ q, precisionOf d = some q ∧ q ≤ p

/-- What `finfo` says about the format with `p` significant bits and exponents of the last bit from `lo` to `hi`. -/
structure IsFinfo (p : Nat) (lo hi : Int) (eps max min tiny : ℚ) (machep negep minexp maxexp : Int) (precision : Nat) : Prop where
  /-- `1 + eps` is the next number after 1. -/
  eps_float : 0 < eps ∧ IsFloat p lo hi (1 + eps)
  eps_next : ∀ t, IsFloat p lo hi t → 1 < t → 1 + eps ≤ t
  machep_eq : eps = 2 ^ machep
  /-- `1 - 2^negep` is the number before 1. -/
  neg_float : IsFloat p lo hi (1 - 2 ^ negep)
  neg_next : ∀ t, IsFloat p lo hi t → t < 1 → t ≤ 1 - 2 ^ negep
  largest : IsFloat p lo hi max ∧ ∀ t, IsFloat p lo hi t → t ≤ max
  least : IsFloat p lo hi min ∧ ∀ t, IsFloat p lo hi t → min ≤ t
  /-- `tiny` is the smallest positive number with `p` significant bits. -/
  tiny_eq : tiny = 2 ^ minexp
  tiny_normal : ∃ m e : Int, 2 ^ (p - 1) ≤ m ∧ m < 2 ^ p ∧ lo ≤ e ∧ e ≤ hi ∧ tiny = m * (2 : ℚ) ^ e
  tiny_least : ∀ m e : Int, 2 ^ (p - 1) ≤ m → m < 2 ^ p → lo ≤ e → e ≤ hi → tiny ≤ m * (2 : ℚ) ^ e
  /-- `2^maxexp` is the first power of two that is too large. -/
  maxexp_eq : max < 2 ^ maxexp ∧ (2 : ℚ) ^ (maxexp - 1) ≤ max
  /-- The number of decimal digits. -/
  digits : (10 : ℚ) ^ precision * eps ≤ 1 ∧ 1 < (10 : ℚ) ^ (precision + 1) * eps

/-- `x` is the smallest positive number of a format. -/
def IsSmallest (p : Nat) (lo hi : Int) (x : ℚ) : Prop :=
  0 < x ∧ IsFloat p lo hi x ∧ ∀ t, IsFloat p lo hi t → 0 < t → x ≤ t

end Spec
