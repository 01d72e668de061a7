import Verif.Model.Array
import Verif.Model.DType
import Verif.Model.Text
import Verif.Model.Search

/-!
# Model: `__array_interface__`, in both directions

Memory is bytes; an element is its bytes.
-/

namespace Rumpy
open Spec

/-- The dictionary. -/
structure Interface where
  shape : List Nat
  typestr : List Char
  data : Int
  strides : Option (List Int)

/-- `__array_interface__`, src/python/pyarray/mod.rs:244-256. -/
def interfaceOf (d : DType) (v : View) : Interface :=
  ⟨v.shape, (DType.typestr d).toList, v.offset, some v.strides⟩

/-- `TimeUnit::from_str`, src/array/dtype/datetime64.rs:24-38. -/
def timeUnitOf (s : List Char) : Option TimeUnit :=
  if s = ['Y'] then some .Y
  else if s = ['M'] then some .M
  else if s = ['W'] then some .W
  else if s = ['D'] then some .D
  else if s = ['h'] then some .h
  else if s = ['m'] then some .m
  else if s = ['s'] then some .s
  else if s = ['m', 's'] then some .ms
  else if s = ['u', 's'] then some .us
  else if s = ['n', 's'] then some .ns
  else none

/-- The unit between the brackets, src/python/creation.rs:682-690 and 699-707: from after the first
`[` to the first `]` (of the typestr without the byte order; a `]` before the `[` would panic, which
the prefix rules out). -/
def bracketed (s : List Char) : Option TimeUnit :=
  let u := (s.dropWhile (· = '<')).dropWhile (· = '>')
  if '[' ∈ u ∧ ']' ∈ u then timeUnitOf (((u.takeWhile (· ≠ ']')).dropWhile (· ≠ '[')).drop 1) else none

/-- The table of kinds and sizes, src/python/creation.rs:736-755. -/
def kindTable : Char → Nat → Option DType
  | 'f', 8 => some .f64
  | 'f', 4 => some .f32
  | 'f', 2 => some .f16
  | 'i', 8 => some .i64
  | 'i', 4 => some .i32
  | 'i', 2 => some .i16
  | 'i', 1 => some .i8
  | 'u', 8 => some .u64
  | 'u', 4 => some .u32
  | 'u', 2 => some .u16
  | 'u', 1 => some .u8
  | 'b', 1 => some .bool
  | 'c', 8 => some .c64
  | 'c', 16 => some .c128
  | _, _ => none

/-- The last part of `dtype_from_typestr`, src/python/creation.rs:733-755: `typestr[2..]` panics on a
text of fewer than two bytes (other texts are taken to be ASCII), a size that is no number is 8. -/
def kindSize (s : List Char) : Outcome DType :=
  if s.length < 2 then .panic
  else match kindTable (s.getD 1 'f') ((parseUsize (s.drop 2)).getD 8) with
    | some d => .ok d
    | none => .error

/-- Byte strings, src/python/creation.rs:725-730, then the rest. -/
def bytesOrKind (s : List Char) : Outcome DType :=
  match s.dropWhile (· = '|') with
  | 'S' :: rest =>
    match parseUsize rest with
    | some n => .ok (.bytes n)
    | none => kindSize s
  | _ => kindSize s

/-- `dtype_from_typestr`, src/python/creation.rs:676-756. -/
def dtypeFromTypestr (s : List Char) : Outcome DType :=
  if s.take 4 = ['<', 'M', '8', '['] ∨ s.take 4 = ['>', 'M', '8', '['] then
    match bracketed s with
    | some u => .ok (.datetime u)
    | none => .error
  else if s.take 4 = ['<', 'm', '8', '['] ∨ s.take 4 = ['>', 'm', '8', '['] then
    match bracketed s with
    | some u => .ok (.timedelta u)
    | none => .error
  else
    match (s.dropWhile (· = '<')).dropWhile (· = '>') with
    | 'U' :: rest =>
      match parseUsize rest with
      | some n => .ok (.str n)
      | none => bytesOrKind s
    | _ => bytesOrKind s

/-- `copy_element`, src/array/dtype/macros.rs:41-43, src/array/dtype/complex128.rs:94-97 and others:
the bytes as they are; src/array/dtype/bool.rs:37-39 stores 0 or 1. -/
def copyBytes (d : DType) (bytes : List (BitVec 8)) : List (BitVec 8) :=
  match d with
  | .bool => bytes.map fun b => if b = 0#8 then 0#8 else 1#8
  | _ => bytes

/-- The byte steps used, src/python/creation.rs:403-405. -/
def interfaceStrides (d : DType) (i : Interface) : List Int := i.strides.getD (cStrides i.shape (DType.itemsize d))

/-- The addresses of the bytes of the element at `idx`, src/python/creation.rs:416-423. -/
def interfaceReads (d : DType) (i : Interface) (idx : List Nat) : List Int :=
  (List.range (DType.itemsize d)).map fun k : Nat => i.data + byteOffset idx (interfaceStrides d i) + (k : Int)

/-- The copy loop of `from_array_interface`, src/python/creation.rs:393-428. -/
def importAs (mem : Int → BitVec 8) (d : DType) (i : Interface) : Arr (List (BitVec 8)) :=
  let size := sizeOf i.shape
  let blank := List.replicate size (List.replicate (DType.itemsize d) 0#8)
  if size = 0 then ⟨i.shape, blank⟩
  else ⟨i.shape, writes ((odometerAll i.shape).zipIdx.map fun io =>
    (io.2, copyBytes d ((interfaceReads d i io.1).map mem))) blank⟩

/-- `from_array_interface`, src/python/creation.rs:351-429. -/
def fromInterface (mem : Int → BitVec 8) (override : Option DType) (i : Interface) : Outcome (DType × Arr (List (BitVec 8))) :=
  match override with
  | some d => .ok (d, importAs mem d i)
  | none =>
    match dtypeFromTypestr i.typestr with
    | .ok d => .ok (d, importAs mem d i)
    | .error => .error
    | .panic => .panic

end Rumpy
