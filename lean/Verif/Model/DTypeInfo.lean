import Verif.Spec.DTypeInfo
import Verif.Model.DType
import Verif.Model.Cast
/-!
# Model: questions about dtypes (src/python/dtype.rs)
-/

namespace Rumpy
open Spec

/-- The table of `normalize_dtype_string`, src/python/dtype.rs:227-242. -/
def normalNames : List (String × String) := [
  ("f2", "float16"), ("<f2", "float16"), ("float16", "float16"),
  ("f4", "float32"), ("<f4", "float32"), ("float32", "float32"),
  ("f8", "float64"), ("<f8", "float64"), ("float64", "float64"), ("float", "float64"),
  ("i1", "int8"), ("|i1", "int8"), ("int8", "int8"),
  ("i2", "int16"), ("<i2", "int16"), ("int16", "int16"),
  ("i4", "int32"), ("<i4", "int32"), ("int32", "int32"),
  ("i8", "int64"), ("<i8", "int64"), ("int64", "int64"), ("int", "int64"),
  ("u1", "uint8"), ("|u1", "uint8"), ("uint8", "uint8"),
  ("u2", "uint16"), ("<u2", "uint16"), ("uint16", "uint16"),
  ("u4", "uint32"), ("<u4", "uint32"), ("uint32", "uint32"),
  ("u8", "uint64"), ("<u8", "uint64"), ("uint64", "uint64"),
  ("?", "bool"), ("|b1", "bool"), ("bool", "bool"),
  ("c8", "complex64"), ("<c8", "complex64"), ("complex64", "complex64"),
  ("c16", "complex128"), ("<c16", "complex128"), ("complex128", "complex128")]

/-- `normalize_dtype_string`, src/python/dtype.rs:226-244. -/
def normalizeDtype (s : String) : String := (normalNames.lookup s).getD s

/-- `dtype_from_string`, src/python/dtype.rs:247-250. -/
def dtypeFromString (s : String) : Option DType := parseDType (normalizeDtype s)

/-- `promote_types`, src/python/dtype.rs:254-267; `none` is the TypeError. -/
def promoteTypes (s1 s2 : String) : Option String := do
  let d1 ← dtypeFromString (normalizeDtype s1)
  let d2 ← dtypeFromString (normalizeDtype s2)
  some (DType.name (promote d1 d2))

/-- `iinfo`, src/python/dtype.rs:115-124. -/
structure IInfo where
  bits : Nat
  min : Int
  max : Int
deriving DecidableEq, Repr

/-- The cases of `iinfo`, src/python/dtype.rs:132-186; `i8::MIN` and so on are the constants of Rust. -/
def iinfoTable : List (String × IInfo) := [
  ("int8", ⟨8, -2 ^ 7, 2 ^ 7 - 1⟩), ("int16", ⟨16, -2 ^ 15, 2 ^ 15 - 1⟩), ("int32", ⟨32, -2 ^ 31, 2 ^ 31 - 1⟩),
  ("int64", ⟨64, -2 ^ 63, 2 ^ 63 - 1⟩), ("uint8", ⟨8, 0, 2 ^ 8 - 1⟩), ("uint16", ⟨16, 0, 2 ^ 16 - 1⟩),
  ("uint32", ⟨32, 0, 2 ^ 32 - 1⟩), ("uint64", ⟨64, 0, 2 ^ 64 - 1⟩), ("bool", ⟨8, 0, 1⟩)]

/-- `PyIinfo::new`, src/python/dtype.rs:129-191; `none` is the TypeError. -/
def iinfo (s : String) : Option IInfo := iinfoTable.lookup (normalizeDtype s)

/-- `finfo`, src/python/dtype.rs:13-42. -/
structure FInfo where
  bits : Nat
  eps : Flt ℚ
  max : Flt ℚ
  min : Flt ℚ
  tiny : Flt ℚ
  sub : Flt ℚ
  machep : Int
  negep : Int
  minexp : Int
  maxexp : Int
  precision : Nat
  resolution : Flt ℚ

/-- A decimal literal of type `f64`, such as `6.104e-5` in src/python/dtype.rs:56: the nearest number. -/
def literal (q : ℚ) : Flt ℚ := roundBin 53 (-1074) 971 q

/-- `float16`, src/python/dtype.rs:51-66. -/
def finfo16 : FInfo where
  bits := 16
  eps := literal (977 / 10 ^ 6)
  max := literal 65504
  min := literal (-65504)
  tiny := literal (6104 / 10 ^ 8)
  sub := literal (596 / 10 ^ 10)
  machep := -10
  negep := -11
  minexp := -14
  maxexp := 16
  precision := 3
  resolution := literal (1 / 10 ^ 3)

/-- `float32`, src/python/dtype.rs:67-82; `f32::EPSILON` and so on are the constants of Rust. -/
def finfo32 : FInfo where
  bits := 32
  eps := .num (2 ^ (-23 : Int))
  max := .num ((2 ^ 24 - 1) * 2 ^ (104 : Int))
  min := .num (-((2 ^ 24 - 1) * 2 ^ (104 : Int)))
  tiny := .num (2 ^ (-126 : Int))
  sub := literal (14 / 10 ^ 46)
  machep := -23
  negep := -24
  minexp := -126
  maxexp := 128
  precision := 6
  resolution := literal (1 / 10 ^ 6)

/-- `float64`, src/python/dtype.rs:83-98. -/
def finfo64 : FInfo where
  bits := 64
  eps := .num (2 ^ (-52 : Int))
  max := .num ((2 ^ 53 - 1) * 2 ^ (971 : Int))
  min := .num (-((2 ^ 53 - 1) * 2 ^ (971 : Int)))
  tiny := .num (2 ^ (-1022 : Int))
  sub := literal (5 / 10 ^ 324)
  machep := -52
  negep := -53
  minexp := -1022
  maxexp := 1024
  precision := 15
  resolution := literal (1 / 10 ^ 15)

/-- `PyFinfo::new`, src/python/dtype.rs:47-103; `none` is the TypeError. -/
def finfo (s : String) : Option FInfo :=
  match normalizeDtype s with
  | "float16" => some finfo16
  | "float32" => some finfo32
  | "float64" => some finfo64
  | _ => none

/-- The tests `is_signed` and so on, written out in src/python/dtype.rs:568-577. -/
def isNumber (d : DType) : Bool := DType.isSigned d || DType.isUnsigned d || DType.isFloat d || DType.isComplex d

/-- `check_dtype_category`, src/python/dtype.rs:563-578. -/
def checkCategory (d : DType) (category : String) : Bool :=
  match category with
  | "integer" | "signedinteger" | "int_" => DType.isSigned d
  | "unsignedinteger" | "uint" => DType.isUnsigned d
  | "floating" | "float_" => DType.isFloat d
  | "complexfloating" | "complex_" => DType.isComplex d
  | "number" => isNumber d
  | "bool_" | "bool8" => d = .bool
  | "generic" => true
  | _ => false

/-- The second argument of `issubdtype`: a class or a string, or a dtype object without `__name__`. -/
inductive SubArg
  | named (s : String)
  | dtype (s : String)
deriving DecidableEq, Repr

/-- `issubdtype`, src/python/dtype.rs:535-560; `none` is the TypeError. -/
def issubdtype (s : String) (arg : SubArg) : Option Bool := do
  let d ← dtypeFromString (normalizeDtype s)
  match arg with
  | .named c => some (checkCategory d c)
  | .dtype t => do
    let e ← dtypeFromString (normalizeDtype t)
    some (d = e)

/-- A string in `check_isdtype_kind`, src/python/dtype.rs:607-622. -/
def checkKind (d : DType) (kind : String) : Bool :=
  match kind with
  | "bool" => d = .bool
  | "signed integer" => DType.isSigned d
  | "unsigned integer" => DType.isUnsigned d
  | "integral" => decide (d = .bool) || DType.isSigned d || DType.isUnsigned d
  | "real floating" => DType.isFloat d
  | "complex floating" => DType.isComplex d
  | "numeric" => isNumber d
  | _ => false

/-- The kind argument of `isdtype`: a string, or a dtype object. -/
inductive KindArg
  | named (s : String)
  | dtype (s : String)
deriving DecidableEq, Repr

/-- `check_isdtype_kind`, src/python/dtype.rs:602-631. -/
def checkKindArg (d : DType) : KindArg → Bool
  | .named s => checkKind d s
  | .dtype t => match dtypeFromString (normalizeDtype t) with
    | some e => d = e
    | none => false

/-- The loop over a tuple in `isdtype`, src/python/dtype.rs:590-595. -/
def anyKind (d : DType) : List KindArg → Bool
  | [] => false
  | k :: ks => if checkKindArg d k then true else anyKind d ks

/-- `isdtype`, src/python/dtype.rs:582-599; a single kind is a list of one. -/
def isdtype (s : String) (kinds : List KindArg) : Option Bool := do
  let d ← dtypeFromString (normalizeDtype s)
  some (anyKind d kinds)

/-- One array in `common_type`, src/python/dtype.rs:489-514: whether there is a complex array so far, and the largest size. -/
def commonStep (acc : Bool × Nat) (d : DType) : Bool × Nat :=
  match d with
  | .c128 => (true, max acc.2 16)
  | .c64 => (true, max acc.2 8)
  | .f64 => (acc.1, max acc.2 8)
  | .f32 => (acc.1, max acc.2 4)
  | .f16 => (acc.1, max acc.2 2)
  | _ => (acc.1, max acc.2 8)

/-- `common_type`, src/python/dtype.rs:477-531; `none` is the TypeError. -/
def commonType (ds : List DType) : Option DType :=
  if ds = [] then none
  else
    let r := ds.foldl commonStep (false, 0)
    some (if r.1 then (if r.2 ≥ 16 then .c128 else .c64)
      else if r.2 ≥ 8 then .f64 else if r.2 ≥ 4 then .f32 else .f64)

end Rumpy
