import Verif.Model.Search
import Verif.Model.Float
/-!
# Model: integer element operations

A `w`-bit integer is a `BitVec w`; whether its type is signed is a parameter.
-/

namespace Rumpy

/-- The element operations of `BinaryOp` (src/array/dtype/mod.rs) treated here.  True division of
integers is done on floats (src/ops/ufunc.rs:183-206) and not listed. -/
inductive IntOp
  | add | sub | mul | mod | floorDiv | maximum | minimum | pow
deriving DecidableEq, Repr

/-- Rust's `a / b`: truncates; panics on division by zero and on `MIN / -1`. -/
def rustDiv (signed : Bool) {w : Nat} (a b : BitVec w) : Outcome (BitVec w) :=
  if b = 0#w then .panic
  else if signed then if a = BitVec.intMin w ∧ b = -1#w then .panic else .ok (a.sdiv b)
  else .ok (a / b)

/-- Rust's `a % b`: sign of `a`; panics like `a / b`. -/
def rustRem (signed : Bool) {w : Nat} (a b : BitVec w) : Outcome (BitVec w) :=
  if b = 0#w then .panic
  else if signed then if a = BitVec.intMin w ∧ b = -1#w then .panic else .ok (a.srem b)
  else .ok (a % b)

/-- Rust's `a.div_euclid(b)`; panics like `a / b`. -/
def rustDivEuclid (signed : Bool) {w : Nat} (a b : BitVec w) : Outcome (BitVec w) :=
  if b = 0#w then .panic
  else if signed then
    if a = BitVec.intMin w ∧ b = -1#w then .panic else .ok (BitVec.ofInt w (a.toInt / b.toInt))
  else .ok (a / b)

/-- `a > b` of the type. -/
def rustGt (signed : Bool) {w : Nat} (a b : BitVec w) : Bool := if signed then b.slt a else b.ult a

/-- `b as u32`: truncated, or extended according to the type. -/
def asU32 (signed : Bool) {w : Nat} (b : BitVec w) : BitVec 32 := if signed then b.signExtend 32 else b.setWidth 32

/-- `binary_op` of the integer dtypes (src/array/dtype/macros.rs:306-328 signed, 508-530 unsigned):
used for `**`, and for every operation when an output array is passed in.  `wrapping_pow` is the
power modulo `2^w`. -/
def intTrait (signed : Bool) (op : IntOp) {w : Nat} (a b : BitVec w) : Outcome (BitVec w) :=
  match op with
  | .add => .ok (a + b)
  | .sub => .ok (a - b)
  | .mul => .ok (a * b)
  | .mod => if b ≠ 0#w then rustRem signed a b else .ok 0#w
  | .floorDiv =>
    if b ≠ 0#w then (if signed then rustDivEuclid signed a b else rustDiv signed a b) else .ok 0#w
  | .maximum => .ok (if rustGt signed a b then a else b)
  | .minimum => .ok (if rustGt signed b a then a else b)
  | .pow =>
    if signed = true ∧ b.toInt < 0 then .ok 0#w
    else .ok (BitVec.ofNat w (a.toNat ^ (asU32 signed b).toNat))

/-- The integer kernels (src/ops/kernels/arithmetic.rs:403-476): used for operands of one dtype when
no output array is passed in.  There is no integer kernel for `Pow` (src/ops/dispatch.rs:67-69,
262-284), so it falls back to `binary_op`. -/
def intKernel (signed : Bool) (op : IntOp) {w : Nat} (a b : BitVec w) : Outcome (BitVec w) :=
  match op with
  | .add => .ok (a + b)
  | .sub => .ok (a - b)
  | .mul => .ok (a * b)
  | .mod => if b = 0#w then .ok 0#w else rustRem signed a b
  | .floorDiv => if b = 0#w then .ok 0#w else rustDiv signed a b
  | .maximum => .ok (if rustGt signed a b then a else b)
  | .minimum => .ok (if rustGt signed b a then a else b)
  | .pow => intTrait signed .pow a b

/-- `try_elision_candidate` (src/python/pyarray/mod.rs:1180-1206; src/array/mod.rs:104-110): whether an
operator passes its left operand as output array.  `fits`: same shape and dtype as the result,
C-contiguous, offset 0, storage not shared. -/
def passesOut (refcount size : Nat) (fits : Bool) : Bool := !(decide (refcount > 2)) && !(decide (size < 32768)) && fits

/-- One element of `a op b` for arrays of one integer dtype (src/ops/ufunc.rs:264-330). -/
def intBinary (out : Bool) (signed : Bool) (op : IntOp) {w : Nat} (a b : BitVec w) : Outcome (BitVec w) :=
  if out then intTrait signed op a b else intKernel signed op a b

/-- One element of `a op b` for two different integer dtypes whose result dtype is an integer type
with range `lo..hi` (src/ops/ufunc.rs:405-455): both values as `f64`, rounded result, saturating
store. -/
def intMixed (op : IntOp) (lo hi x y : Int) : Option Int :=
  match op with
  | .add => some (f64ToInt lo hi (intToF64 (intToF64 x + intToF64 y)))
  | .sub => some (f64ToInt lo hi (intToF64 (intToF64 x - intToF64 y)))
  | .mul => some (f64ToInt lo hi (intToF64 (intToF64 x * intToF64 y)))
  | _ => none -- not modelled

/-! ### Bitwise operations -/

inductive BitOp
  | and | or | xor | shl | shr
deriving DecidableEq, Repr

/-- src/ops/kernels/bitwise.rs:38-75 and `bitwise_op` (src/array/dtype/macros.rs:396-409, 598-611).
`wrapping_shl`/`wrapping_shr` take the amount modulo the width; `>>` keeps the sign of signed
types. -/
def bitKernel (signed : Bool) (op : BitOp) {w : Nat} (a b : BitVec w) : BitVec w :=
  match op with
  | .and => a &&& b
  | .or => a ||| b
  | .xor => a ^^^ b
  | .shl => a <<< ((asU32 signed b).toNat % w)
  | .shr => if signed then a.sshiftRight ((asU32 signed b).toNat % w) else a >>> ((asU32 signed b).toNat % w)

/-- src/ops/kernels/bitwise.rs:77-82. -/
def bitNot {w : Nat} (a : BitVec w) : BitVec w := ~~~a

/-- `n` bytes at an address, little-endian. -/
def readLE (mem : Int → BitVec 8) (addr : Int) : Nat → Nat
  | 0 => 0
  | n + 1 => (mem addr).toNat + 2 ^ 8 * readLE mem (addr + 1) n

/-- One element of a bitwise operation on arrays of different dtypes (`map_binary_bitwise_trait`,
src/ops/bitwise.rs:40-70): both operands are read as elements of the result dtype (`n` bytes), at the
addresses of their own elements. -/
def bitMixed (signed : Bool) (op : BitOp) (n : Nat) (memA : Int → BitVec 8) (addrA : Int) (memB : Int → BitVec 8)
    (addrB : Int) : BitVec (8 * n) :=
  bitKernel signed op (BitVec.ofNat (8 * n) (readLE memA addrA n)) (BitVec.ofNat (8 * n) (readLE memB addrB n))

end Rumpy
