import Verif.Spec.Totals
import Verif.Model.Arith
import Verif.Model.Reduce
/-!
# Model: sum, prod, max, min and mean of an array of any number dtype

The loops are those of Model/Reduce, with the kernel of each dtype; strings, dates and durations are left out.
-/

namespace Rumpy
open Spec

/-- The reduction kernels of `f32` and `f64` (src/ops/kernels/arithmetic.rs:110-133). -/
def totalFlt (p : Nat) (lo hi : Int) (op : Total) (acc v : Flt ℚ) : Flt ℚ :=
  match op with
  | .sum => fltAdd p lo hi acc v
  | .prod => fltMul p lo hi acc v
  | .max => if fltLt acc v then v else acc
  | .min => if fltLt v acc then v else acc

/-- The reduction kernels of `f16` (src/ops/kernels/arithmetic.rs:285-308): sums and products are computed in `f32`. -/
def totalHalf (op : Total) (acc v : Flt ℚ) : Flt ℚ :=
  match op with
  | .sum => toFormat 11 (-24) 5 (fltAdd 24 (-149) 104 acc v)
  | .prod => toFormat 11 (-24) 5 (fltMul 24 (-149) 104 acc v)
  | .max => if fltLt acc v then v else acc
  | .min => if fltLt v acc then v else acc

/-- The reduction kernels of the integers from `lo` to `hi` (src/ops/kernels/arithmetic.rs:423-446). -/
def totalInt (lo hi : Int) (op : Total) (acc v : Int) : Int :=
  match op with
  | .sum => wrapTo lo hi (acc + v)
  | .prod => wrapTo lo hi (acc * v)
  | .max => if acc < v then v else acc
  | .min => if v < acc then v else acc

/-- The loops of bool: `Sum` and `Prod` in src/ops/registry.rs:137-156, `Max` and `Min` in src/array/dtype/bool.rs:83-93. -/
def totalBool (op : Total) (acc v : Bool) : Bool :=
  match op with
  | .sum => if v then true else acc
  | .prod => if v then acc else false
  | .max => acc || v
  | .min => acc && v

/-- `norm_sqr` of a complex number. -/
def normSqr (p : Nat) (lo hi : Int) (x y : Flt ℚ) : Flt ℚ := fltAdd p lo hi (fltMul p lo hi x x) (fltMul p lo hi y y)

/-- The reduction kernels of complex numbers (src/ops/kernels/arithmetic.rs:505-516, 621-636); the loops of the dtypes
(src/array/dtype/complex128.rs:361-380, complex64.rs:358-377) have the same formulas. -/
def totalCpx (p : Nat) (lo hi : Int) (op : Total) (x y u v : Flt ℚ) : Elem :=
  match op with
  | .sum => .cpx (fltAdd p lo hi x u) (fltAdd p lo hi y v)
  | .prod => .cpx (fltSub p lo hi (fltMul p lo hi x u) (fltMul p lo hi y v)) (fltAdd p lo hi (fltMul p lo hi x v) (fltMul p lo hi y u))
  | .max => if fltLt (normSqr p lo hi x y) (normSqr p lo hi u v) then .cpx u v else .cpx x y
  | .min => if fltLt (normSqr p lo hi u v) (normSqr p lo hi x y) then .cpx u v else .cpx x y

/-- `combine` of the kernel of a dtype; elements have the dtype, so the last case does not occur. -/
def totalStep (op : Total) (d : DType) (acc v : Elem) : Elem :=
  match acc, v with
  | .bool a, .bool b => .bool (totalBool op a b)
  | .int a, .int b => match d.intRange with
    | some (lo, hi) => .int (totalInt lo hi op a b)
    | none => acc
  | .flt a, .flt b => .flt (match d with
    | .f16 => totalHalf op a b
    | .f32 => totalFlt 24 (-149) 104 op a b
    | _ => totalFlt 53 (-1074) 971 op a b)
  | .cpx a b, .cpx u v => if d = .c64 then totalCpx 24 (-149) 104 op a b u v else totalCpx 53 (-1074) 971 op a b u v
  | _, _ => acc

/-- `init` of the kernel of a dtype (src/ops/kernels/arithmetic.rs:110-131, 285-306, 423-444, 505-514, 621-632; bool:
src/ops/registry.rs:140, 150 and src/array/dtype/bool.rs:73-81). -/
def totalInit (op : Total) (d : DType) : Elem :=
  match d with
  | .bool => .bool (op = .prod || op = .min)
  | .f16 | .f32 | .f64 => .flt (match op with | .sum => .num 0 | .prod => .num 1 | .max => .negInf | .min => .posInf)
  | .c64 | .c128 => .cpx (match op with | .sum => .num 0 | .prod => .num 1 | .max => .negInf | .min => .posInf) (.num 0)
  | d => match d.intRange with
    | some (lo, hi) => .int (match op with | .sum => 0 | .prod => 1 | .max => lo | .min => hi)
    | none => .int 0

/-- `reduce_acc` of the dtypes: as the kernels, but `max` and `min` of floats are Rust's (src/array/dtype/macros.rs:154-164, 340-350,
542-552; float16.rs:146-156; bool.rs:83-93; complex128.rs:361-380; complex64.rs:358-377). -/
def totalAcc (op : Total) (d : DType) (acc v : Elem) : Elem :=
  match op, acc, v with
  | .max, .flt a, .flt b => .flt (fltMax a b)
  | .min, .flt a, .flt b => .flt (fltMin a b)
  | op, acc, v => totalStep op d acc v

/-- `reduce_init` of the dtypes: complex `Min` starts from minus infinity as well (src/array/dtype/complex128.rs:349-359,
complex64.rs:346-356). -/
def totalAccInit (op : Total) (d : DType) : Elem :=
  if (d = .c64 ∨ d = .c128) ∧ op = .min then .cpx .negInf (.num 0) else totalInit op d

/-- A result of the typed loops stored in an array of one element: `full` writes it as a float64
(src/ops/dispatch.rs:483-527), `full_complex` both parts (528-535). -/
def storeTotal (d : DType) (x : Elem) : Elem :=
  match x with
  | .cpx u v => .cpx u v
  | x => writeF64 d ((readF64 x).getD (.num 0))

/-- `reduce_all_op`, src/ops/ufunc.rs:529-594: the typed loops, for the dtypes they do not know and for strided arrays of two or more
dimensions the loop over all elements. -/
def totalAll (op : Total) (d : DType) (h : Held Elem) : Elem :=
  match (if d = .bool then none else reduceTyped (totalStep op d) (totalInit op d) h.mem h.view) with
  | some x => storeTotal d x
  | none =>
    if sizeOf h.view.shape = 0 then totalAccInit op d
    else h.view.addrs.foldl (fun acc p => totalAcc op d acc (h.mem p)) (totalAccInit op d)

/-- `sum`, `prod`, `max`, `min` without an axis (src/ops/array_methods/reductions.rs:16-18, 32-34, 42-44, 52-54,
`reduce_all_f64`, src/ops/ufunc.rs:597-600): the result is read with `get_element` (src/array/mod.rs:144-152). -/
def total (op : Total) (d : DType) (h : Held Elem) : Flt ℚ := (readF64 (totalAll op d h)).getD (.num 0)

/-- The methods with `keepdims=True` (src/python/pyarray/methods_reductions.rs:14-95, `scalar_reduction_with_keepdims`,
src/python/pyarray/mod.rs:154-171). -/
def totalKeep (op : Total) (d : DType) (h : Held Elem) : Arr Elem :=
  ⟨List.replicate h.view.shape.length 1, [writeF64 d (total op d h)]⟩

/-- `mean`, src/ops/array_methods/reductions.rs:62-67. -/
def totalMean (d : DType) (h : Held Elem) : Flt ℚ :=
  if sizeOf h.view.shape = 0 then .nan
  else fltDiv 53 (-1074) 971 false (total .sum d h) (.num (intToF64 (sizeOf h.view.shape)))

/-- `reduce_axis_op`, src/ops/ufunc.rs:607-694: the typed loops, for bool the loop over the elements of each lane. -/
def totalAxis (op : Total) (d : DType) (h : Held Elem) (axis : Nat) : Arr Elem :=
  if d = .bool then reduceAxisFallback (totalAcc op d) (totalAccInit op d) h.mem h.view axis (zeroElem d)
  else reduceAxis (totalStep op d) (totalInit op d) h.mem h.view axis (zeroElem d)

/-- `mean_axis`, src/ops/array_methods/reductions.rs:70-75; an error of the division is a panic.  The power of floats
is not used. -/
def totalMeanAxis (d : DType) (h : Held Elem) (axis : Nat) : Outcome (DType × Arr Elem) :=
  match arith false ⟨fun x _ => x, fun x _ => x⟩ false .div d d (Held.of (totalAxis .sum d h axis) (DType.itemsize d) (zeroElem d))
      (fullOne d (.num (intToF64 (h.view.shape.getD axis 0)))) with
  | .error => .panic
  | r => r

end Rumpy
