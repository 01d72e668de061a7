import Verif.Spec.DType
import Verif.Model.Text
/-!
# Model: dtype promotion and casting rules (src/array/dtype/mod.rs, src/python/dtype.rs)
-/

namespace Rumpy
open Spec

/-- `itemsize`, src/array/dtype/{integers,floats,float16,bool,complex64,complex128,datetime64,string}.rs. -/
def DType.itemsize : DType → Nat
  | .bool | .i8 | .u8 => 1
  | .f16 | .i16 | .u16 => 2
  | .f32 | .i32 | .u32 => 4
  | .f64 | .i64 | .u64 | .datetime _ | .timedelta _ | .c64 => 8
  | .c128 => 16
  | .str n => n * 4
  | .bytes n => n

/-- `promotion_priority`: integers.rs:7-16, floats.rs:7-8, float16.rs:28, bool.rs:27, complex64.rs:82,
complex128.rs:84, datetime64.rs:152, 329, string.rs:107, 339. -/
def DType.priority : DType → Nat
  | .i64 => 80 | .i32 => 70 | .i16 => 60 | .i8 => 50
  | .u64 => 75 | .u32 => 65 | .u16 => 55 | .u8 => 30
  | .f64 => 100 | .f32 => 90 | .f16 => 80
  | .bool => 10
  | .c64 => 105 | .c128 => 110
  | .datetime _ | .timedelta _ => 50
  | .str _ | .bytes _ => 0

/-- Closures of `promote_dtype`, src/array/dtype/mod.rs:529-595. -/
def DType.isComplex : DType → Bool
  | .c64 | .c128 => true
  | _ => false

def DType.isDatetime : DType → Bool
  | .datetime _ => true
  | _ => false

def DType.isFloat : DType → Bool
  | .f16 | .f32 | .f64 => true
  | _ => false

def DType.isLargeInt : DType → Bool
  | .i32 | .i64 | .u32 | .u64 => true
  | _ => false

def DType.isMediumInt : DType → Bool
  | .i16 | .u16 => true
  | _ => false

def DType.isSigned : DType → Bool
  | .i8 | .i16 | .i32 | .i64 => true
  | _ => false

def DType.isUnsigned : DType → Bool
  | .u8 | .u16 | .u32 | .u64 => true
  | _ => false

/-- The part of `promote_dtype` for integers, bool and what is left, src/array/dtype/mod.rs:591-621. -/
def promoteInts (a b : DType) : DType :=
  if (DType.isSigned a && DType.isUnsigned b) || (DType.isUnsigned a && DType.isSigned b) then
    let signed := if DType.isSigned a then a else b
    let unsigned := if DType.isSigned a then b else a
    if DType.itemsize signed > DType.itemsize unsigned then signed
    else match max (DType.itemsize signed) (DType.itemsize unsigned) with
      | 1 => .i16
      | 2 => .i32
      | 4 => .i64
      | _ => .f64
  else if DType.priority a ≥ DType.priority b then a else b

/-- `promote_dtype`, src/array/dtype/mod.rs:517-622. -/
def promote (a b : DType) : DType :=
  if a = b then a
  else if DType.isComplex a || DType.isComplex b then
    if a = .c128 ∨ b = .c128 then .c128
    else if a = .f64 ∨ b = .f64 then .c128
    else if DType.isLargeInt a || DType.isLargeInt b then .c128
    else .c64
  else if DType.isDatetime a || DType.isDatetime b then a
  else if DType.isFloat a || DType.isFloat b then
    let fk := if DType.isFloat a then a else b
    let ik := if DType.isFloat a then b else a
    if fk = .f32 ∧ DType.isLargeInt ik then .f64
    else if fk = .f16 ∧ DType.isLargeInt ik then .f64
    else if fk = .f16 ∧ DType.isMediumInt ik then .f32
    else if fk = .f64 ∨ ik = .f64 then .f64
    else if fk = .f32 ∨ ik = .f32 then .f32
    else if fk = .f16 then .f16
    else promoteInts a b
  else promoteInts a b

/-- `result_type`, src/python/dtype.rs:273-291; no argument is an error. -/
def resultType : List DType → Option DType
  | [] => none
  | d :: ds => some (ds.foldl promote d)

/-- `int_bits`, src/python/dtype.rs:369-375. -/
def DType.intBits : DType → Nat
  | .i8 | .u8 => 8
  | .i16 | .u16 => 16
  | .i32 | .u32 => 32
  | .i64 | .u64 => 64
  | _ => 0

/-- `can_cast_safe`, src/python/dtype.rs:358-438. -/
def canCastSafe (a b : DType) : Bool :=
  if a = b then true
  else if a = .bool then DType.intBits b != 0 || DType.isFloat b || DType.isComplex b
  else if DType.isFloat a && DType.isFloat b then DType.itemsize a ≤ DType.itemsize b
  else if DType.isFloat a && DType.isComplex b then
    match a, b with
    | .f32, .c64 | .f32, .c128 | .f64, .c128 | .f16, _ => true
    | _, _ => false
  else if DType.isComplex a && DType.isComplex b then DType.itemsize a ≤ DType.itemsize b
  else if (DType.isSigned a || DType.isUnsigned a) && DType.isFloat b then
    match b with
    | .f64 => DType.intBits a ≤ 32
    | .f32 => DType.intBits a ≤ 16
    | .f16 => DType.intBits a ≤ 8
    | _ => false
  else if (DType.isSigned a || DType.isUnsigned a) && DType.isComplex b then true
  else if DType.isSigned a && DType.isSigned b then DType.intBits a ≤ DType.intBits b
  else if DType.isUnsigned a && DType.isUnsigned b then DType.intBits a ≤ DType.intBits b
  else if DType.isUnsigned a && DType.isSigned b then DType.intBits a < DType.intBits b
  else false

/-- `can_cast_same_kind`, src/python/dtype.rs:441-471. -/
def canCastSameKind (a b : DType) : Bool :=
  if canCastSafe a b then true
  else if (DType.isSigned a || DType.isUnsigned a) && (DType.isSigned b || DType.isUnsigned b) then true
  else if DType.isFloat a && DType.isFloat b then true
  else if DType.isComplex a && DType.isComplex b then true
  else false

/-- The `casting` argument of `can_cast`. -/
inductive Casting | no | equiv | safe | sameKind | unsafeCast
deriving DecidableEq, Repr

/-- `can_cast`, src/python/dtype.rs:334-355. -/
def canCast (a b : DType) : Casting → Bool
  | .no => a = b
  | .equiv => a = b ∨ DType.itemsize a = DType.itemsize b
  | .safe => canCastSafe a b
  | .sameKind => canCastSameKind a b
  | .unsafeCast => true

/-! ### Names -/

/-- `TimeUnit::as_str`, src/array/dtype/datetime64.rs:41-54. -/
def TimeUnit.str : TimeUnit → String
  | .Y => "Y"
  | .M => "M"
  | .W => "W"
  | .D => "D"
  | .h => "h"
  | .m => "m"
  | .s => "s"
  | .ms => "ms"
  | .us => "us"
  | .ns => "ns"

/-- `name`: integers.rs:7-16, floats.rs:7-8, float16.rs:27, bool.rs:26, complex64.rs:81, complex128.rs:83,
datetime64.rs:137-150, 314-327, string.rs:103-105, 335-337. -/
def DType.name : DType → String
  | .f16 => "float16"
  | .f32 => "float32"
  | .f64 => "float64"
  | .i8 => "int8"
  | .i16 => "int16"
  | .i32 => "int32"
  | .i64 => "int64"
  | .u8 => "uint8"
  | .u16 => "uint16"
  | .u32 => "uint32"
  | .u64 => "uint64"
  | .bool => "bool"
  | .c64 => "complex64"
  | .c128 => "complex128"
  | .datetime .Y => "datetime64[Y]"
  | .datetime .M => "datetime64[M]"
  | .datetime .W => "datetime64[W]"
  | .datetime .D => "datetime64[D]"
  | .datetime .h => "datetime64[h]"
  | .datetime .m => "datetime64[m]"
  | .datetime .s => "datetime64[s]"
  | .datetime .ms => "datetime64[ms]"
  | .datetime .us => "datetime64[us]"
  | .datetime .ns => "datetime64[ns]"
  | .timedelta .Y => "timedelta64[Y]"
  | .timedelta .M => "timedelta64[M]"
  | .timedelta .W => "timedelta64[W]"
  | .timedelta .D => "timedelta64[D]"
  | .timedelta .h => "timedelta64[h]"
  | .timedelta .m => "timedelta64[m]"
  | .timedelta .s => "timedelta64[s]"
  | .timedelta .ms => "timedelta64[ms]"
  | .timedelta .us => "timedelta64[us]"
  | .timedelta .ns => "timedelta64[ns]"
  | .str _ => "str"
  | .bytes _ => "bytes"

/-- `typestr`, same places. -/
def DType.typestr : DType → String
  | .f16 => "<f2"
  | .f32 => "<f4"
  | .f64 => "<f8"
  | .i8 => "|i1"
  | .i16 => "<i2"
  | .i32 => "<i4"
  | .i64 => "<i8"
  | .u8 => "|u1"
  | .u16 => "<u2"
  | .u32 => "<u4"
  | .u64 => "<u8"
  | .bool => "|b1"
  | .c64 => "<c8"
  | .c128 => "<c16"
  | .datetime .Y => "<M8[Y]"
  | .datetime .M => "<M8[M]"
  | .datetime .W => "<M8[W]"
  | .datetime .D => "<M8[D]"
  | .datetime .h => "<M8[h]"
  | .datetime .m => "<M8[m]"
  | .datetime .s => "<M8[s]"
  | .datetime .ms => "<M8[ms]"
  | .datetime .us => "<M8[us]"
  | .datetime .ns => "<M8[ns]"
  | .timedelta .Y => "<m8[Y]"
  | .timedelta .M => "<m8[M]"
  | .timedelta .W => "<m8[W]"
  | .timedelta .D => "<m8[D]"
  | .timedelta .h => "<m8[h]"
  | .timedelta .m => "<m8[m]"
  | .timedelta .s => "<m8[s]"
  | .timedelta .ms => "<m8[ms]"
  | .timedelta .us => "<m8[us]"
  | .timedelta .ns => "<m8[ns]"
  | .str _ => "<U0"
  | .bytes _ => "|S0"

/-- The fixed names of `FromStr for DType`, src/array/dtype/mod.rs:430-468. -/
def dtypeNames : List (String × DType) := [
  ("float16", .f16), ("f2", .f16), ("<f2", .f16),
  ("float32", .f32), ("f4", .f32), ("<f4", .f32),
  ("float64", .f64), ("f8", .f64), ("<f8", .f64), ("float", .f64),
  ("int8", .i8), ("i1", .i8), ("|i1", .i8),
  ("int16", .i16), ("i2", .i16), ("<i2", .i16),
  ("int32", .i32), ("i4", .i32), ("<i4", .i32),
  ("int64", .i64), ("i8", .i64), ("<i8", .i64), ("int", .i64),
  ("uint8", .u8), ("u1", .u8), ("|u1", .u8),
  ("uint16", .u16), ("u2", .u16), ("<u2", .u16),
  ("uint32", .u32), ("u4", .u32), ("<u4", .u32),
  ("uint64", .u64), ("u8", .u64), ("<u8", .u64),
  ("bool", .bool), ("?", .bool), ("|b1", .bool),
  ("complex64", .c64), ("c8", .c64), ("<c8", .c64),
  ("complex128", .c128), ("c16", .c128), ("<c16", .c128),
  ("datetime64[Y]", .datetime .Y), ("<M8[Y]", .datetime .Y), (">M8[Y]", .datetime .Y),
  ("datetime64[M]", .datetime .M), ("<M8[M]", .datetime .M), (">M8[M]", .datetime .M),
  ("datetime64[W]", .datetime .W), ("<M8[W]", .datetime .W), (">M8[W]", .datetime .W),
  ("datetime64[D]", .datetime .D), ("<M8[D]", .datetime .D), (">M8[D]", .datetime .D),
  ("datetime64[h]", .datetime .h), ("<M8[h]", .datetime .h), (">M8[h]", .datetime .h),
  ("datetime64[m]", .datetime .m), ("<M8[m]", .datetime .m), (">M8[m]", .datetime .m),
  ("datetime64[s]", .datetime .s), ("<M8[s]", .datetime .s), (">M8[s]", .datetime .s),
  ("datetime64[ms]", .datetime .ms), ("<M8[ms]", .datetime .ms), (">M8[ms]", .datetime .ms),
  ("datetime64[us]", .datetime .us), ("<M8[us]", .datetime .us), (">M8[us]", .datetime .us),
  ("datetime64[ns]", .datetime .ns), ("<M8[ns]", .datetime .ns), (">M8[ns]", .datetime .ns),
  ("timedelta64[Y]", .timedelta .Y), ("<m8[Y]", .timedelta .Y), (">m8[Y]", .timedelta .Y),
  ("timedelta64[M]", .timedelta .M), ("<m8[M]", .timedelta .M), (">m8[M]", .timedelta .M),
  ("timedelta64[W]", .timedelta .W), ("<m8[W]", .timedelta .W), (">m8[W]", .timedelta .W),
  ("timedelta64[D]", .timedelta .D), ("<m8[D]", .timedelta .D), (">m8[D]", .timedelta .D),
  ("timedelta64[h]", .timedelta .h), ("<m8[h]", .timedelta .h), (">m8[h]", .timedelta .h),
  ("timedelta64[m]", .timedelta .m), ("<m8[m]", .timedelta .m), (">m8[m]", .timedelta .m),
  ("timedelta64[s]", .timedelta .s), ("<m8[s]", .timedelta .s), (">m8[s]", .timedelta .s),
  ("timedelta64[ms]", .timedelta .ms), ("<m8[ms]", .timedelta .ms), (">m8[ms]", .timedelta .ms),
  ("timedelta64[us]", .timedelta .us), ("<m8[us]", .timedelta .us), (">m8[us]", .timedelta .us),
  ("timedelta64[ns]", .timedelta .ns), ("<m8[ns]", .timedelta .ns), (">m8[ns]", .timedelta .ns),
  ("str", .str 0), ("str_", .str 0), ("bytes", .bytes 0), ("bytes_", .bytes 0)]

/-- `FromStr for DType`, src/array/dtype/mod.rs:426-486: a fixed name, or a letter with a length. -/
def parseDType (s : String) : Option DType :=
  match dtypeNames.lookup s with
  | some d => some d
  | none =>
    match (s.toList.dropWhile (· == '<')).dropWhile (· == '|') with
    | 'U' :: rest => (parseUsize rest).map .str
    | 'S' :: rest => (parseUsize rest).map .bytes
    | _ => none

end Rumpy
