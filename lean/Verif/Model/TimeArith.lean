import Verif.Model.Calendar
import Verif.Model.DType
/-!
# Model: arithmetic and comparison of dates and durations, one element

Layout and broadcasting are treated in C15; here only the choice of path and the value computed.
-/

namespace Rumpy
open Spec

inductive AddSub
  | add | sub
deriving DecidableEq, Repr

/-- The `i64` kernels `Add` and `Sub` (src/ops/kernels/arithmetic.rs:405-412): wrapping. -/
def addSub : AddSub → Int → Int → Int
  | .add, x, y => wrap64 (x + y)
  | .sub, x, y => wrap64 (x - y)

/-- Operands of different dtypes: both through `f64`, the result cast back
(src/ops/ufunc.rs:411-457, `read_f64`/`write_f64` in src/array/dtype/datetime64.rs).  The sum of two
`f64` integers is the rounded exact sum. -/
def addSubF64 : AddSub → Int → Int → Int
  | .add, x, y => f64ToInt (-2 ^ 63) (2 ^ 63 - 1) (intToF64 (intToF64 x + intToF64 y))
  | .sub, x, y => f64ToInt (-2 ^ 63) (2 ^ 63 - 1) (intToF64 (intToF64 x - intToF64 y))

/-- `DTypeOps::binary_op` for dates and durations (src/array/dtype/datetime64.rs:177-202, 353-376),
`Add` and `Sub`. -/
def timeOp (op : AddSub) (x y : Int) : Int := if x = NaT ∨ y = NaT then NaT else addSub op x y

/-- `map_binary_op_inplace` for `Add`/`Sub` with a date or duration operand
(src/ops/ufunc.rs:213-455; src/ops/dispatch.rs:119-161, 337-339).  `reuse` says that an output array
was passed in.  `none` is the error `UnsupportedDtype`. -/
def timeBinary (op : AddSub) (reuse : Bool) (a b : DType) (x y : Int) : Option (DType × Int) :=
  let fallback : Option (DType × Int) :=
    if a = b then
      if reuse then some (a, timeOp op x y) else some (a, addSub op x y)
    else some (promote a b, addSubF64 op x y)
  match op, a, b with
  | .add, .datetime _, .datetime _ => none
  | .add, .datetime u, .timedelta _ => some (.datetime u, addSub .add x y)
  | .add, .timedelta _, .datetime w => some (.datetime w, addSub .add x y)
  | .sub, .datetime u, .datetime w => if u = w then some (.timedelta u, addSub .sub x y) else fallback
  | .sub, .datetime u, .timedelta _ => some (.datetime u, addSub .sub x y)
  | _, _, _ => fallback

/-- `astype` between two dates or two durations (src/array/mod.rs:395-417); anything else through
`f64` (src/array/mod.rs:418-424; here only for 64-bit integers inside). -/
def timeCast (a b : DType) (x : Int) : Int :=
  match a, b with
  | .datetime u, .datetime w => if u = w then x else convertDatetime x u w
  | .timedelta u, .timedelta w => if u = w then x else convertDatetime x u w
  | _, _ => if a = b then x else viaF64 x

/-- `map_compare_op` on dates or durations (src/ops/ufunc.rs:466-494, src/ops/dispatch.rs:1125-1127):
both operands are cast to the promoted dtype and compared as 64-bit integers. -/
def timeCompare (cmp : Int → Int → Bool) (a b : DType) (x y : Int) : Bool :=
  let c := promote a b
  cmp (timeCast a c x) (timeCast b c y)

end Rumpy
