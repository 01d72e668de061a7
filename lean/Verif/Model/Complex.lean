import Mathlib.Analysis.SpecialFunctions.Complex.Log
import Verif.Spec.Complex
import Verif.Model.Cast
import Verif.Model.Compare
import Verif.Model.Elementwise
/-!
# Model: complex numbers (src/ops/kernels/math.rs, src/ops/ufunc.rs, src/ops/array_methods/unary.rs)

Numbers are exact: the formulas are read over the reals.  Operators and methods of the third-party type `Complex`
(`+`, `*`, `/`, `ln`, `exp`, `norm`) are those of Mathlib's complex numbers.  A signed zero has no counterpart, so a
function that looks at the sign bit gets it as a parameter.
-/

namespace Rumpy
open Spec

/-- `is_sign_negative`: the sign of a number other than zero; a zero can have either sign. -/
def SignBit (neg : Bool) (x : ℝ) : Prop := (x < 0 → neg = true) ∧ (0 < x → neg = false)

open Classical in
/-- `numpy_sqrt`, src/ops/kernels/math.rs:461-477, and `complex_sqrt`, src/array/dtype/complex128.rs:47-62; `neg` is the
sign bit of the imaginary part. -/
noncomputable def numpySqrt (neg : Bool) (z : ℂ) : ℂ :=
  if z.re = 0 ∧ z.im = 0 then ⟨0, z.im⟩
  else
    let mag := √(z.re * z.re + z.im * z.im)
    let r := √((mag + z.re) / 2)
    let i := √((mag - z.re) / 2)
    if neg then ⟨r, -i⟩ else ⟨r, i⟩

/-- `Arcsin`, src/ops/kernels/math.rs:552-592. -/
noncomputable def arcsinKernel (neg : Bool) (v : ℂ) : ℂ :=
  let z2re := v.re * v.re - v.im * v.im
  let z2im := 2 * v.re * v.im
  let s := numpySqrt neg ⟨1 - z2re, -z2im⟩
  (-Complex.I) * Complex.log (⟨-v.im, v.re⟩ + s)

/-- `Arccos`, src/ops/kernels/math.rs:593-601. -/
noncomputable def arccosKernel (neg : Bool) (v : ℂ) : ℂ := ⟨Real.pi / 2, 0⟩ - arcsinKernel neg v

/-- `Arcsinh`, src/ops/kernels/math.rs:655-663. -/
noncomputable def arcsinhKernel (neg : Bool) (v : ℂ) : ℂ :=
  let s := numpySqrt neg (v * v + ⟨1, 0⟩)
  Complex.log (v + s)

/-- `Arccosh`, src/ops/kernels/math.rs:664-673. -/
noncomputable def arccoshKernel (neg : Bool) (v : ℂ) : ℂ :=
  let s := numpySqrt neg (v * v - ⟨1, 0⟩)
  Complex.log (v + s)

open Classical in
/-- `Arctanh`, src/ops/kernels/math.rs:674-703. -/
noncomputable def arctanhKernel (v : ℂ) : ℂ :=
  let nre := 1 + v.re
  let nim := v.im
  let dre := 1 - v.re
  let dim := -v.im
  let d2 := dre * dre + dim * dim
  let rre := (nre * dre + nim * dim) / d2
  let rim := (nim * dre - nre * dim) / d2
  let l : ℂ := if rre < 0 ∧ rim = 0 then ⟨Real.log (-rre), Real.pi⟩ else Complex.log ⟨rre, rim⟩
  ⟨1 / 2 * l.re, 1 / 2 * l.im⟩

open Classical in
/-- `Sign`, src/ops/kernels/math.rs:606-612. -/
noncomputable def signKernel (v : ℂ) : ℂ := if ‖v‖ = 0 then 0 else v / (‖v‖ : ℂ)

/-- `Abs`, src/ops/kernels/math.rs:485-491: the modulus as a complex number. -/
noncomputable def absKernel (v : ℂ) : ℂ := ⟨‖v‖, 0⟩

/-- `Exp2`, src/ops/kernels/math.rs:621-627. -/
noncomputable def exp2Kernel (v : ℂ) : ℂ := Complex.exp (v * (Real.log 2 : ℝ))

/-- The arithmetic of the mixed-dtype fallback, src/ops/ufunc.rs:347-349. -/
noncomputable def mixedMul (a b : ℂ) : ℂ := ⟨a.re * b.re - a.im * b.im, a.re * b.im + a.im * b.re⟩

open Classical in
/-- Division, src/ops/ufunc.rs:350-357; `none` is NaN in both parts. -/
noncomputable def mixedDiv (a b : ℂ) : Option ℂ :=
  let denom := b.re * b.re + b.im * b.im
  if denom ≠ 0 then some ⟨(a.re * b.re + a.im * b.im) / denom, (a.im * b.re - a.re * b.im) / denom⟩ else none

open Classical in
/-- Powers, src/ops/ufunc.rs:358-370 and src/array/dtype/complex128.rs:25-40; `atan2 y x` is the argument of `x + iy`. -/
noncomputable def mixedPow (a b : ℂ) : Option ℂ :=
  if a.re = 0 ∧ a.im = 0 then if 0 < b.re then some ⟨0, 0⟩ else none
  else
    let mag := √(a.re * a.re + a.im * a.im)
    let lr := Real.log mag
    let li := Complex.arg ⟨a.re, a.im⟩
    let pr := b.re * lr - b.im * li
    let pi := b.re * li + b.im * lr
    some ⟨Real.exp pr * Real.cos pi, Real.exp pr * Real.sin pi⟩

/-- A complex number whose parts are floats; `none` is NaN. -/
abbrev CF (K : Type) := Option K × Option K

/-- `is_nan` of either part, src/ops/kernels/arithmetic.rs:545. -/
def cNan {K : Type} (a : CF K) : Bool := a.1.isNone || a.2.isNone

/-- `>` of floats. -/
def gtF {K : Type} [LinearOrder K] : Option K → Option K → Bool
  | some x, some y => decide (y < x)
  | _, _ => false

/-- `>=` of floats. -/
def geF {K : Type} [LinearOrder K] : Option K → Option K → Bool
  | some x, some y => decide (y ≤ x)
  | _, _ => false

/-- `==` of floats. -/
def eqF {K : Type} [LinearOrder K] : Option K → Option K → Bool
  | some x, some y => decide (x = y)
  | _, _ => false

/-- The test of `Maximum`, src/ops/kernels/arithmetic.rs:547. -/
def notLess {K : Type} [LinearOrder K] (a b : CF K) : Bool := gtF a.1 b.1 || (eqF a.1 b.1 && geF a.2 b.2)

/-- The test of `Minimum`, src/ops/kernels/arithmetic.rs:556. -/
def notGreater {K : Type} [LinearOrder K] (a b : CF K) : Bool := gtF b.1 a.1 || (eqF a.1 b.1 && geF b.2 a.2)

/-- `Maximum`, src/ops/kernels/arithmetic.rs:541-549; also src/ops/ufunc.rs:372-374. -/
def maximumC {K : Type} [LinearOrder K] (a b : CF K) : CF K :=
  if cNan a || cNan b then (none, none) else if notLess a b then a else b

/-- `Minimum`, src/ops/kernels/arithmetic.rs:550-558; also src/ops/ufunc.rs:375-377. -/
def minimumC {K : Type} [LinearOrder K] (a b : CF K) : CF K :=
  if cNan a || cNan b then (none, none) else if notGreater a b then a else b

/-- `FMax`, src/ops/kernels/arithmetic.rs:574-585; also src/ops/ufunc.rs:387-394. -/
def fmaxC {K : Type} [LinearOrder K] (a b : CF K) : CF K :=
  if cNan a && cNan b then (none, none) else if cNan a then b else if cNan b then a
  else if notLess a b then a else b

/-- `FMin`, src/ops/kernels/arithmetic.rs:586-597; also src/ops/ufunc.rs:395-402. -/
def fminC {K : Type} [LinearOrder K] (a b : CF K) : CF K :=
  if cNan a && cNan b then (none, none) else if cNan a then b else if cNan b then a
  else if notGreater a b then a else b

/-- `compare_elements` of complex numbers without NaN, src/array/dtype/complex128.rs:392-399: is the first one less? -/
def lessByMagnitude (a b : ℚ × ℚ) : Bool := decide (a.1 * a.1 + a.2 * a.2 < b.1 * b.1 + b.2 * b.2)

/-- The reduction `Max` of complex numbers, src/ops/kernels/arithmetic.rs:621-628: the accumulator starts with an
infinite magnitude, and `v.norm_sqr() > acc.norm_sqr()` compares with it. -/
def maxStep (acc : Option (ℚ × ℚ)) (v : ℚ × ℚ) : Option (ℚ × ℚ) :=
  match acc with
  | none => none
  | some a => if lessByMagnitude a v then some v else some a

/-- The whole reduction; `none` is the initial value (minus infinity, 0). -/
def maxReduceC (vs : List (ℚ × ℚ)) : Option (ℚ × ℚ) := vs.foldl maxStep none

/-- The reduction `Min`, src/ops/kernels/arithmetic.rs:629-636; every finite number has a smaller magnitude than the
initial value (infinity, 0). -/
def minStep (acc : Option (ℚ × ℚ)) (v : ℚ × ℚ) : Option (ℚ × ℚ) :=
  match acc with
  | none => some v
  | some a => if lessByMagnitude v a then some v else some a

/-- The whole reduction. -/
def minReduceC (vs : List (ℚ × ℚ)) : Option (ℚ × ℚ) := vs.foldl minStep none

/-- One part of `nan_to_num`, src/ops/array_methods/unary.rs:338-344, 363-369, 385-386 and 409-410; `cast` is the conversion of
the arguments to the type of the elements and `big` its largest number, lines 328-332. -/
def cleanValue (cast : Flt ℚ → Flt ℚ) (big : ℚ) (nan : Flt ℚ) (posinf neginf : Option (Flt ℚ)) (v : Flt ℚ) : Flt ℚ :=
  match v with
  | .nan => cast nan
  | .posInf => match posinf with
    | some x => cast x
    | none => .num big
  | .negInf => match neginf with
    | some x => cast x
    | none => .num (-big)
  | .num q => .num q

/-- `real`, src/ops/array_methods/unary.rs:207-236: `parts` reads an element as its two parts, `isComplex` says whether the
dtype is complex (otherwise a copy is returned, read by `whole`). -/
def realPart {α γ : Type} (isComplex : Bool) (parts : α → γ × γ) (whole : α → γ) (mem : Int → α) (v : View) (zero : γ) : Arr γ :=
  if isComplex then mapUnaryFallback (fun x => (parts x).1) mem v zero else mapUnaryFallback whole mem v zero

/-- `imag`, src/ops/array_methods/unary.rs:241-270. -/
def imagPart {α γ : Type} (isComplex : Bool) (parts : α → γ × γ) (mem : Int → α) (v : View) (zero : γ) : Arr γ :=
  if isComplex then mapUnaryFallback (fun x => (parts x).2) mem v zero
  else ⟨v.shape, List.replicate (sizeOf v.shape) zero⟩

/-- `conj` of a complex array, src/ops/array_methods/unary.rs:275-316. -/
def conjugate {γ : Type} [Neg γ] (mem : Int → γ × γ) (v : View) (zero : γ) : Arr (γ × γ) :=
  mapUnaryFallback (fun x => (x.1, -x.2)) mem v (zero, zero)

end Rumpy
