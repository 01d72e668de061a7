import Verif.Model.Arith
import Verif.Model.Ufunc
import Verif.Model.Cumulative
/-!
# Model: first differences of the elements of a dtype (src/ops/array_methods/cumulative.rs)
-/

namespace Rumpy
open Spec

/-- `write_f64(read_f64(x) - read_f64(y))`, src/ops/array_methods/cumulative.rs:45-49, 73-76. -/
def diffVia (d : DType) (x y : Elem) : Elem :=
  writeF64 d (floatKernel 53 (-1074) 971 false .sub ((readF64 x).getD (.num 0)) ((readF64 y).getD (.num 0)))

/-- One element of `diff_1d_contiguous`, src/ops/array_methods/cumulative.rs:17-54: the kernel `Sub` (Model/FloatOps; integers wrap), or
through `f64` for the dtypes that are not listed, such as int8. -/
def diffTyped (d : DType) (x y : Elem) : Elem :=
  match d, x, y with
  | .f64, .flt u, .flt v => .flt (floatKernel 53 (-1074) 971 false .sub u v)
  | .f32, .flt u, .flt v => .flt (floatKernel 24 (-149) 104 false .sub u v)
  | .c128, .cpx u u', .cpx v v' => .cpx (floatKernel 53 (-1074) 971 false .sub u v) (floatKernel 53 (-1074) 971 false .sub u' v')
  | .c64, .cpx u u', .cpx v v' => .cpx (floatKernel 24 (-149) 104 false .sub u v) (floatKernel 24 (-149) 104 false .sub u' v')
  | .i64, .int m, .int n => .int (wrapTo (-2 ^ 63) (2 ^ 63 - 1) (m - n))
  | .i32, .int m, .int n => .int (wrapTo (-2 ^ 31) (2 ^ 31 - 1) (m - n))
  | .i16, .int m, .int n => .int (wrapTo (-2 ^ 15) (2 ^ 15 - 1) (m - n))
  | .u64, .int m, .int n => .int (wrapTo 0 (2 ^ 64 - 1) (m - n))
  | .u32, .int m, .int n => .int (wrapTo 0 (2 ^ 32 - 1) (m - n))
  | .u16, .int m, .int n => .int (wrapTo 0 (2 ^ 16 - 1) (m - n))
  | .u8, .int m, .int n => .int (wrapTo 0 (2 ^ 8 - 1) (m - n))
  | d, x, y => diffVia d x y

/-- `diff` of order one, src/ops/array_methods/cumulative.rs:83-129. -/
def diffElems (d : DType) (h : Held Elem) (axis : Nat) : Arr Elem :=
  diff (diffTyped d) (diffVia d) (zeroElem d) 1 h.mem h.view axis

end Rumpy
