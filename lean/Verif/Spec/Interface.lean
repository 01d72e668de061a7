import Verif.Spec.Nd
import Verif.Spec.DType

/-!
# Specification: objects that offer their memory through `__array_interface__`
-/

namespace Spec

/-- Bytes of one element. -/
def DType.width : DType → Nat
  | .f16 | .i16 | .u16 => 2
  | .f32 | .i32 | .u32 => 4
  | .f64 | .i64 | .u64 | .datetime _ | .timedelta _ | .c64 => 8
  | .c128 => 16
  | .i8 | .u8 | .bool => 1
  | .str n => 4 * n
  | .bytes n => n

/-- What NumPy writes for a dtype and byte order. -/
def numpyTypestr (big : Bool) (d : DType) : List Char :=
  let order := if big then '>' else '<'
  let unit : TimeUnit → List Char
    | .Y => ['Y'] | .M => ['M'] | .W => ['W'] | .D => ['D'] | .h => ['h'] | .m => ['m'] | .s => ['s']
    | .ms => ['m', 's'] | .us => ['u', 's'] | .ns => ['n', 's']
  match d with
  | .f16 => [order, 'f', '2']
  | .f32 => [order, 'f', '4']
  | .f64 => [order, 'f', '8']
  | .i8 => ['|', 'i', '1']
  | .i16 => [order, 'i', '2']
  | .i32 => [order, 'i', '4']
  | .i64 => [order, 'i', '8']
  | .u8 => ['|', 'u', '1']
  | .u16 => [order, 'u', '2']
  | .u32 => [order, 'u', '4']
  | .u64 => [order, 'u', '8']
  | .bool => ['|', 'b', '1']
  | .c64 => [order, 'c', '8']
  | .c128 => [order, 'c', '1', '6']
  | .datetime u => [order, 'M', '8', '['] ++ unit u ++ [']']
  | .timedelta u => [order, 'm', '8', '['] ++ unit u ++ [']']
  | .str n => [order, 'U'] ++ Nat.toDigits 10 n
  | .bytes n => ['|', 'S'] ++ Nat.toDigits 10 n

/-- An array of another library: shape, dtype, byte order, address of the first element, and the
byte steps along the axes (or none, for row-major order). -/
structure Exported where
  shape : List Nat
  dtype : DType
  big : Bool
  data : Int
  strides : Option (List Int)

/-- The address of an element. -/
def Exported.addr (e : Exported) (idx : List Nat) : Int :=
  match e.strides with
  | some st => e.data + (List.zipWith (fun (i : Nat) (s : Int) => (i : Int) * s) idx st).sum
  | none => e.data + rank e.shape idx * e.dtype.width

/-- The bytes of an element as this machine, which is little-endian, writes its value: those of a
big-endian number come in reverse order.  (Complex numbers and strings have several numbers in one
element: only stated for little-endian ones.) -/
def Exported.bytes (e : Exported) (mem : Int → BitVec 8) (idx : List Nat) : List (BitVec 8) :=
  let raw := (List.range e.dtype.width).map fun k : Nat => mem (e.addr idx + (k : Int))
  if e.big then raw.reverse else raw

/-- A byte of the exported array. -/
def Exported.Owns (e : Exported) (p : Int) : Prop :=
  ∃ idx, InShape e.shape idx ∧ e.addr idx ≤ p ∧ p < e.addr idx + e.dtype.width

end Spec
