import Verif.Spec.Bitwise
import Verif.Model.Arith
/-!
# Model: bitwise operations of arrays and of an array and a Python integer

Arrays are views of a buffer of bytes (src/ops/bitwise.rs, src/ops/dispatch.rs:1207-1458, src/python/pyarray/mod.rs:1316-1366).  An
element that is read outside the buffer is `none`.
-/

namespace Rumpy
open Spec

/-- An array and its buffer; src/array/mod.rs. -/
structure RawArr where
  dtype : DType
  view : View
  buf : List (BitVec 8)

/-- The `n` bytes from `p` on. -/
def bytesAt (buf : List (BitVec 8)) (p : Int) (n : Nat) : List (BitVec 8) := (buf.drop p.toNat).take n

/-- What a user sees of a bool or integer array. -/
def RawArr.nd (a : RawArr) : Nd Elem :=
  ⟨a.view.shape, fun i => bytesElem a.dtype (bytesAt a.buf (a.view.addr i) (DType.itemsize a.dtype))⟩

/-- `Self::read` of an integer dtype with `n` bytes, src/array/dtype/macros.rs:224-226, 426-428; `none`: not all of them are in the
buffer. -/
def readBits (n : Nat) (buf : List (BitVec 8)) (p : Int) : Option (BitVec (8 * n)) :=
  if 0 ≤ p ∧ p + n ≤ buf.length then some (BitVec.ofNat (8 * n) (readLE (fun q => buf.getD q.toNat 0#8) p n)) else none

/-- `bitwise_op` of bools, src/array/dtype/bool.rs:145-151, and the kernels of src/ops/kernels/bitwise.rs:98-117. -/
def boolBit : BitOp → Bool → Bool → Bool
  | .and, u, v => u && v
  | .or, u, v => u || v
  | .xor, u, v => u != v
  | .shl, u, _ => u
  | .shr, u, _ => u

/-- One element: both operands are read as elements of the result dtype `r`, src/ops/bitwise.rs:61-63, src/ops/dispatch.rs:1368-1370. -/
def bitElem (op : BitOp) (r : DType) (x y : Option (BitVec (8 * DType.itemsize r))) : Option Elem :=
  match x, y with
  | some x, some y => some (if r = .bool then .bool (boolBit op (x != 0) (y != 0))
      else .int (bitsValue (DType.isSigned r) (bitKernel (DType.isSigned r) op x y)))
  | _, _ => none

/-- The dtypes whose `bitwise_op` does not return `false`, src/array/dtype/mod.rs:318-322, macros.rs:396-409, 598-611,
bool.rs:141-154, string.rs:231-242, 454-465. -/
def bitAccepts (r : DType) : Bool := decide (r = .bool) || isIntegerKind r

/-- The loops: `dispatch_binary_typed` for integers of one dtype (src/ops/dispatch.rs:1284-1296, 1324-1336), the loops for bools
(1360-1389), and `map_binary_bitwise_trait` (src/ops/bitwise.rs:58-68) for the rest. -/
def bitLoop (op : BitOp) (r : DType) (same : Bool) (a b : RawArr) (va vb : View) (out : List Nat) : Arr (Option Elem) :=
  if same && (isIntegerKind r || (decide (op ≠ .shl) && decide (op ≠ .shr) && (va.cFlag && va.shape == out && (vb.cFlag && vb.shape == out)))) then
    mapBinary (bitElem op r) (readBits (DType.itemsize r) a.buf) (readBits (DType.itemsize r) b.buf) va vb out (some (zeroElem r))
  else mapBinaryFallback (bitElem op r) (readBits (DType.itemsize r) a.buf) (readBits (DType.itemsize r) b.buf) va vb out (some (zeroElem r))

/-- `map_binary_bitwise`, src/ops/bitwise.rs:14-37; `none`: an exception. -/
def bitwise (op : BitOp) (a b : RawArr) : Option (DType × Arr (Option Elem)) := do
  let out ← broadcastShapes a.view.shape b.view.shape
  let va ← a.view.broadcastTo out
  let vb ← b.view.broadcastTo out
  if sizeOf out = 0 then some (promote a.dtype b.dtype, ⟨out, []⟩)
  else if bitAccepts (promote a.dtype b.dtype) then
    some (promote a.dtype b.dtype, bitLoop op (promote a.dtype b.dtype) (decide (a.dtype = b.dtype)) a b va vb out)
  else none

/-- One element of `~`: src/ops/kernels/bitwise.rs:76-81, 119-124, src/array/dtype/macros.rs:411-414, bool.rs:156-159. -/
def notElem (r : DType) (x : Option (BitVec (8 * DType.itemsize r))) : Option Elem :=
  x.map fun x => if r = .bool then .bool !(x != 0) else .int (bitsValue (DType.isSigned r) (bitNot x))

/-- `map_unary_bitwise_not`, src/ops/bitwise.rs:73-110, with `dispatch_bitwise_not_kernel` and `dispatch_bitwise_not_bool_typed`
(src/ops/dispatch.rs:1395-1419, 1422-1458). -/
def bitwiseNot (a : RawArr) : Option (DType × Arr (Option Elem)) :=
  if sizeOf a.view.shape = 0 then some (a.dtype, ⟨a.view.shape, []⟩)
  else if isIntegerKind a.dtype || (decide (a.dtype = .bool) && a.view.cFlag) then
    some (a.dtype, mapUnary (notElem a.dtype) (readBits (DType.itemsize a.dtype) a.buf) a.view (some (zeroElem a.dtype)))
  else if a.dtype = .bool then
    some (a.dtype, mapUnaryFallback (notElem a.dtype) (readBits (DType.itemsize a.dtype) a.buf) a.view (some (zeroElem a.dtype)))
  else none

/-- The bytes of an integer, least significant first. -/
def intBytes (n : Nat) (x : Int) : List (BitVec 8) := (List.range n).map fun i => BitVec.ofInt 8 (x / 2 ^ (8 * i))

/-- `RumpyArray::full(vec![1], scalar as f64, DType::int64())`, src/python/pyarray/mod.rs:1332, 1355. -/
def fullInt64 (n : Int) : RawArr := ⟨.i64, View.fresh [1] 8, intBytes 8 (viaF64 n)⟩

/-- `bitwise_binary_op_dispatch` with a Python integer, src/python/pyarray/mod.rs:1331-1342, and with `rev` its mirror image
`rbitwise_binary_op_dispatch` (1346-1366); an integer that is no `i64` is a `TypeError`. -/
def bitwiseScalar (rev : Bool) (op : BitOp) (a : RawArr) (n : Int) : Option (DType × Arr (Option Elem)) :=
  if -2 ^ 63 ≤ n ∧ n ≤ 2 ^ 63 - 1 then if rev then bitwise op (fullInt64 n) a else bitwise op a (fullInt64 n) else none

/-- `__and__` … `__rrshift__`, src/python/pyarray/dunder_ops.rs:163-210: the reflected `&`, `|` and `^` use the array as the left
operand. -/
def bitwiseDunder (reflected : Bool) (op : BitOp) (a : RawArr) (n : Int) : Option (DType × Arr (Option Elem)) :=
  bitwiseScalar (reflected && (decide (op = .shl) || decide (op = .shr))) op a n

end Rumpy
