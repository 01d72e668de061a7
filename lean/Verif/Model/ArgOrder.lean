import Verif.Model.ArgReduce
import Verif.Model.Compare
import Verif.Model.Cast
import Verif.Model.Choose

/-!
# `argmax` and `argmin` for every dtype (src/ops/array_methods/reductions.rs, src/python/reductions.rs)
-/

namespace Rumpy

open Spec

/-- The dtypes `argmax`, `argmin`, `argmax_axis` and `argmin_axis` send to the typed loops: the four equal tables of
src/ops/array_methods/reductions.rs:221-288. -/
def typedArg : DType → Bool
  | .f64 | .f32 | .i64 | .i32 | .i16 | .u64 | .u32 | .u16 | .u8 => true
  | _ => false

/-- The value that is compared: the element itself in the typed loops (src/ops/array_methods/reductions.rs:457, 473, 488, 503),
in the others the f64 it is read as, with 0 for what cannot be read (298, 315, and 367, 371 through src/array/mod.rs:144-152). -/
def argRead (d : DType) (x : Elem) : Flt ℚ :=
  if typedArg d then
    match x with
    | .int n => .num n
    | .flt u => u
    | _ => .num 0
  else (readF64 x).getD (.num 0)

/-- `neg_infinity`, src/ops/array_methods/reductions.rs:395-430, and `f64::NEG_INFINITY` in `argmax_slow` (295). -/
def argLow (d : DType) : Flt ℚ :=
  if typedArg d then
    match d.intRange with
    | some (lo, _) => .num lo
    | none => .negInf
  else .negInf

/-- `pos_infinity`, src/ops/array_methods/reductions.rs:395-430, and `f64::INFINITY` in `argmin_slow` (312). -/
def argHigh (d : DType) : Flt ℚ :=
  if typedArg d then
    match d.intRange with
    | some (_, hi) => .num hi
    | none => .posInf
  else .posInf

/-- `v > best_val`. -/
def fltGt (x y : Flt ℚ) : Bool := fltLt y x

/-- `argmax` of the whole array, src/ops/array_methods/reductions.rs:221-236. -/
def argmaxFn (d : DType) (h : Held Elem) : Nat :=
  argFull (typedArg d) fltGt (argLow d) (fun p => argRead d (h.mem p)) h.view

/-- `argmin` of the whole array, src/ops/array_methods/reductions.rs:239-254. -/
def argminFn (d : DType) (h : Held Elem) : Nat :=
  argFull (typedArg d) fltLt (argHigh d) (fun p => argRead d (h.mem p)) h.view

/-- What Python gets without an axis: the index as an f64, src/python/reductions.rs:221-224. -/
def argmaxPy (d : DType) (h : Held Elem) : Int := intToF64 (argmaxFn d h)

/-- The same for `argmin`, src/python/reductions.rs:238-241. -/
def argminPy (d : DType) (h : Held Elem) : Int := intToF64 (argminFn d h)

/-- `argmax_axis`, src/ops/array_methods/reductions.rs:257-271, with `argmax_axis_slow` (325-327). -/
def argmaxAxisFn (d : DType) (h : Held Elem) (axis : Nat) : Outcome (Arr Nat) :=
  if typedArg d then argAxis fltGt (argLow d) (fun p => argRead d (h.mem p)) h.view axis
  else .ok (argAxisSlow fltGt (fun p => argRead d (h.mem p)) h.view axis)

/-- `argmin_axis`, src/ops/array_methods/reductions.rs:274-288, with `argmin_axis_slow` (330-332). -/
def argminAxisFn (d : DType) (h : Held Elem) (axis : Nat) : Outcome (Arr Nat) :=
  if typedArg d then argAxis fltLt (argHigh d) (fun p => argRead d (h.mem p)) h.view axis
  else .ok (argAxisSlow fltLt (fun p => argRead d (h.mem p)) h.view axis)

end Rumpy
