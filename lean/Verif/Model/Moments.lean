import Verif.Spec.Moments
import Verif.Model.Elementwise
import Verif.Model.Reduce
import Verif.Model.Rearrange
import Verif.Model.Search
import Mathlib.Data.List.Sort
/-!
# Model: means and central moments, axis arguments, several axes, keepdims

Floats are elements of a field. `typed` says that binary operations use the typed kernels and not the
per-element fallback; the two give the same values.
-/

namespace Rumpy
open Spec

/-! ### Whole arrays -/

/-- `mean`, src/ops/array_methods/reductions.rs:62-67. `none` is NaN. -/
def meanAll [Field K] (h : Held K) : Option K :=
  if sizeOf h.view.shape = 0 then none
  else some (reduceAll (· + ·) 0 h.mem h.view / (sizeOf h.view.shape : K))

/-- `variance_f64_contiguous`, src/ops/ufunc.rs:26-42. -/
def varContiguous [Field K] (d : Nat → K) (size : Nat) : K :=
  let sum := (List.range size).foldl (fun s i => s + d i) 0
  let mean := sum / (size : K)
  (List.range size).foldl (fun s i => s + (d i - mean) * (d i - mean)) 0 / (size : K)

/-- `var`, src/ops/array_methods/reductions.rs:79-105; `f64` says that the dtype is float64. -/
def varAll [Field K] (f64 : Bool) (h : Held K) : Option K :=
  let size := sizeOf h.view.shape
  if size = 0 then none
  else if h.view.cFlag && f64 then some (varContiguous (fun (i : Nat) => h.mem (h.view.offset + (i : Int) * (h.view.item : Int))) size)
  else
    (meanAll h).map fun mean => h.view.addrs.foldl (fun s p => s + (h.mem p - mean) * (h.mem p - mean)) 0 / (size : K)

/-- `moment`, src/ops/array_methods/reductions.rs:114-131. -/
def momentAll [Field K] (k : Nat) (h : Held K) : Option K :=
  let size := sizeOf h.view.shape
  if size = 0 then none
  else (meanAll h).map fun mean => h.view.addrs.foldl (fun s p => s + (h.mem p - mean) ^ k) 0 / (size : K)

/-! ### Along an axis -/

/-- `sum_axis`, `prod_axis`, `max_axis`, `min_axis`, src/ops/array_methods/reductions.rs:21-59, as calls of
`reduce_axis_op`; `none` is the panic of an axis out of range. -/
def reduceStep (op : α → α → α) (e : α) (h : Held α) (axis : Nat) : Option (Arr α) :=
  if axis < h.view.shape.length then some (reduceAxis op e h.mem h.view axis e) else none

/-- An array with one element, `RumpyArray::full(vec![1], x, dtype)`. -/
def oneOf (x : α) : Arr α := ⟨[1], [x]⟩

/-- `mean_axis`, src/ops/array_methods/reductions.rs:70-75. The sum and the count are in the dtype of the
array (`add`, `zero`, `ofCount`); `div` includes the conversion of integers to float64. -/
def meanAxis (typed : Bool) (add : α → α → α) (zero : α) (ofCount : Nat → α) (div : α → α → β) (zeroB : β) (h : Held α) (axis : Nat) :
    Option (Arr β) :=
  match reduceStep add zero h axis with
  | none => none
  | some sum =>
    let s := Held.of sum h.view.item zero
    let c := Held.of (oneOf (ofCount (h.view.shape.getD axis 0))) h.view.item zero
    binaryOp typed div s.mem c.mem s.view c.view zeroB

/-- `mean_axis` on floats. -/
def meanStep [Field K] (typed : Bool) (h : Held K) (axis : Nat) : Option (Arr K) :=
  meanAxis typed (· + ·) 0 (fun n => (n : K)) (· / ·) 0 h axis

/-- The power step of `moment_axis`, src/ops/array_methods/reductions.rs:154-161. -/
def powered [Field K] (typed : Bool) (k : Nat) (d : Held K) : Option (Arr K) :=
  if k = 2 then binaryOp typed (· * ·) d.mem d.mem d.view d.view 0
  else
    let c := Held.of (oneOf (k : K)) d.view.item 0
    binaryOp typed (fun x _ => x ^ k) d.mem c.mem d.view c.view 0

/-- `moment_axis`, src/ops/array_methods/reductions.rs:135-167. `none` is a panic. -/
def momentAxis [Field K] (typed : Bool) (k : Nat) (h : Held K) (axis : Nat) : Option (Arr K) :=
  if axis < h.view.shape.length then
    if h.view.shape.getD axis 0 = 0 then
      let os := h.view.shape.eraseIdx axis
      let out := if os.isEmpty then [1] else os
      some ⟨out, List.replicate (sizeOf out) 0⟩
    else
      match meanStep typed h axis with
      | none => none
      | some mean =>
        match (mean.view h.view.item).expandDims axis with
        | none => none
        | some mv =>
          match binaryOp typed (· - ·) h.mem (mean.mem h.view.item 0) h.view mv 0 with
          | none => none
          | some diff =>
            match powered typed k (Held.of diff h.view.item 0) with
            | none => none
            | some pw =>
              match reduceStep (· + ·) 0 (Held.of pw h.view.item 0) axis with
              | none => none
              | some sum =>
                let s := Held.of sum h.view.item 0
                let c := Held.of (oneOf ((h.view.shape.getD axis 0 : Nat) : K)) h.view.item 0
                binaryOp typed (· / ·) s.mem c.mem s.view c.view 0
  else none

/-! ### The Python arguments -/

/-- What may be passed as `axis`. -/
inductive AxisArg where
  | none
  | one (axis : Int)
  | many (axes : List Int)

/-- `resolve_axis` and `check_axis`, src/python/reductions.rs:10-28. A sum that stays negative becomes a
huge `usize` and fails the check. -/
def checkedAxis (ndim : Nat) (axis : Int) : Option Nat :=
  let r := if axis < 0 then (ndim : Int) + axis else axis
  if r < 0 ∨ (ndim : Int) ≤ r then none else some r.toNat

/-- `parse_axis`, src/python/reductions.rs:32-76. The outer `none` is an error. -/
def parseAxis (ndim : Nat) : AxisArg → Option (Option (List Nat))
  | .none => some none
  | .one a => (checkedAxis ndim a).map fun k => some [k]
  | .many l =>
    match l.mapM (checkedAxis ndim) with
    | none => none
    | some ks => if ks.isEmpty then none else some (some ks)

/-- `reduce_multi_axis`, src/python/reductions.rs:81-93; `none` is a panic. -/
def reduceAxes (step : Held α → Nat → Option (Arr α)) (item : Nat) (zero : α) (h : Held α) (axes : List Nat) : Option (Held α) :=
  (axes.insertionSort (· ≥ ·)).foldlM (fun r ax => (step r ax).map fun a => Held.of a item zero) h

/-- What a reduction returns. -/
inductive Reduced (α : Type u) where
  | scalar (x : α)
  | array (h : Held α)

/-- `sum`, `prod`, `mean`, `var`, `std`, `max`, `min`, src/python/reductions.rs:102-216, given the reduction
of the whole array and of one axis. -/
def reduceFn (full : Held α → α) (step : Held α → Nat → Option (Arr α)) (item : Nat) (zero : α) (h : Held α) (arg : AxisArg) :
    Outcome (Reduced α) :=
  match parseAxis h.view.shape.length arg with
  | none => .error
  | some none => .ok (.scalar (full h))
  | some (some [ax]) =>
    match step h ax with
    | none => .panic
    | some a => .ok (.array (Held.of a item zero))
  | some (some axes) =>
    match reduceAxes step item zero h axes with
    | none => .panic
    | some r => .ok (.array r)

/-- `apply_keepdims`, src/python/pyarray/mod.rs:148-151. -/
def applyKeepdims (h : Held α) (axis : Nat) : Held α :=
  match h.view.expandDims axis with
  | some v => ⟨h.mem, v⟩
  | none => h

/-- The methods `sum`, `prod`, `max`, `min`, `mean`, src/python/pyarray/methods_reductions.rs:14-118, with
`scalar_reduction_with_keepdims` and `axis_reduction_with_keepdims`, src/python/pyarray/mod.rs:154-184. `conv` is
the passage of the value through `f64` when it is stored. -/
def reduceMethod (full : Held α → α) (step : Held α → Nat → Option (Arr α)) (conv : α → α) (item : Nat) (zero : α) (h : Held α)
    (axis : Option Int) (keepdims : Bool) : Outcome (Reduced α) :=
  match axis with
  | none =>
    if keepdims then .ok (.array (Held.of ⟨List.replicate h.view.shape.length 1, [conv (full h)]⟩ item zero))
    else .ok (.scalar (full h))
  | some a =>
    match checkedAxis h.view.shape.length a with
    | none => .error
    | some ax =>
      match step h ax with
      | none => .panic
      | some r => .ok (.array (if keepdims then applyKeepdims (Held.of r item zero) ax else Held.of r item zero))

end Rumpy
