import Mathlib.Analysis.SpecialFunctions.Trigonometric.Inverse
import Mathlib.Analysis.SpecialFunctions.Artanh
import Mathlib.Analysis.SpecialFunctions.Log.Base
import Mathlib.Analysis.SpecialFunctions.Pow.Real
import Mathlib.Analysis.SpecialFunctions.Pow.Complex
import Verif.Spec.Emath
import Verif.Model.Complex
import Verif.Model.Select
import Verif.Model.Rearrange
/-!
# Model: emath (src/python/emath.rs)

Numbers are exact and NaN is `none`; the functions of the standard library and of the crate `num_complex` are Mathlib's.
-/

namespace Rumpy
open Spec

/-- `get_complex_dtype`, src/python/emath.rs:15-22. -/
def getComplexDtype : DType → DType
  | .c64 => .c64
  | .c128 => .c128
  | .f32 => .c64
  | _ => .c128

open Classical in
/-- The loops of `has_negative_values`, src/python/emath.rs:26-49, `has_values_outside_unit`, src/python/emath.rs:52-68, and
`has_values_outside_open_unit`, src/python/emath.rs:71-87, over an array of real numbers; comparisons with NaN are false. -/
noncomputable def hasValue (p : ℝ → Prop) (mem : Int → Option ℝ) (v : View) : Bool :=
  if sizeOf v.shape = 0 then false
  else v.addrs.any fun o => match mem o with
    | some x => decide (p x)
    | none => false

/-- `apply_*_with_complex` for a real array, src/python/emath.rs:90-100: `astype` to the complex dtype copies every number,
and the function is applied to every element. -/
noncomputable def withComplex (p : ℝ → Prop) (fR : ℝ → ℝ) (fC : ℂ → ℂ) (mem : Int → Option ℝ) (v : View) :
    Arr (Option ℝ) ⊕ Arr (Option ℂ) :=
  if hasValue p mem v then .inr (mapUnaryFallback (Option.map fun x : ℝ => fC (x : ℂ)) mem v none)
  else .inl (mapUnaryFallback (Option.map fR) mem v none)

/-- `apply_*_with_complex` for a complex array, src/python/emath.rs:90-100. -/
noncomputable def ofComplex (fC : ℂ → ℂ) (mem : Int → Option ℂ) (v : View) : Arr (Option ℂ) :=
  mapUnaryFallback (Option.map fC) mem v none

/-- `emath.sqrt`, src/python/emath.rs:90-100; `sqrt` of `num_complex` is the principal root. -/
noncomputable def emathSqrt (mem : Int → Option ℝ) (v : View) :=
  withComplex (fun x => x < 0) Real.sqrt (fun z => z ^ (1 / 2 : ℂ)) mem v

/-- `emath.log`, src/python/emath.rs:102-112. -/
noncomputable def emathLog (mem : Int → Option ℝ) (v : View) := withComplex (fun x => x < 0) Real.log Complex.log mem v

/-- `emath.log2`, src/python/emath.rs:114-124, and `emath.log10`, src/python/emath.rs:126-136. -/
noncomputable def emathLogBase (b : ℝ) (mem : Int → Option ℝ) (v : View) :=
  withComplex (fun x => x < 0) (Real.logb b) (fun z => Complex.log z / (Real.log b : ℝ)) mem v

open Classical in
/-- `emath.arccos`, src/python/emath.rs:138-148.  The imaginary part of the argument is +0, so the sign bit that the kernel
looks at is that of `-(2 x · 0)`. -/
noncomputable def emathArccos (mem : Int → Option ℝ) (v : View) :=
  withComplex (fun x => x < -1 ∨ 1 < x) Real.arccos (fun z => arccosKernel (decide (0 ≤ z.re)) z) mem v

open Classical in
/-- `emath.arcsin`, src/python/emath.rs:150-160. -/
noncomputable def emathArcsin (mem : Int → Option ℝ) (v : View) :=
  withComplex (fun x => x < -1 ∨ 1 < x) Real.arcsin (fun z => arcsinKernel (decide (0 ≤ z.re)) z) mem v

/-- `emath.arctanh`, src/python/emath.rs:162-172. -/
noncomputable def emathArctanh (mem : Int → Option ℝ) (v : View) :=
  withComplex (fun x => x ≤ -1 ∨ 1 ≤ x) Real.artanh arctanhKernel mem v

/-- Division of numbers that may be NaN. -/
noncomputable def divC {K : Type} [Div K] (a b : Option K) : Option K := match a, b with
  | some x, some y => some (x / y)
  | _, _ => none

/-- `emath.logn` of real arrays, src/python/emath.rs:213-247. -/
noncomputable def emathLogn (item : Nat) (n x : Held (Option ℝ)) : Option (Arr (Option ℝ) ⊕ Arr (Option ℂ)) :=
  if hasValue (fun x => x < 0) n.mem n.view || hasValue (fun x => x < 0) x.mem x.view then
    let lx := Held.of (mapUnaryFallback (Option.map fun x : ℝ => Complex.log (x : ℂ)) x.mem x.view none) item none
    let ln := Held.of (mapUnaryFallback (Option.map fun x : ℝ => Complex.log (x : ℂ)) n.mem n.view none) item none
    (binaryOp true divC lx.mem ln.mem lx.view ln.view none).map .inr
  else
    let lx := Held.of (mapUnaryFallback (Option.map Real.log) x.mem x.view none) item none
    let ln := Held.of (mapUnaryFallback (Option.map Real.log) n.mem n.view none) item none
    (binaryOp true divC lx.mem ln.mem lx.view ln.view none).map .inl

/-- `check_power_needs_complex`, src/python/emath.rs:284-325. -/
noncomputable def powerNeedsComplex (x p : Held (Option ℝ)) : Bool :=
  if sizeOf x.view.shape = 0 ∨ sizeOf p.view.shape = 0 then false
  else if !hasValue (fun x => x < 0) x.mem x.view then false
  else hasValue (fun y => y ≠ (⌊y⌋ : ℝ)) p.mem p.view

open Classical in
/-- `powf`: the power of a non-negative number, or of any number with an integer exponent; otherwise NaN. -/
noncomputable def realPow (x y : ℝ) : Option ℝ :=
  if y = (⌊y⌋ : ℝ) then some (x ^ ⌊y⌋) else if 0 ≤ x then some (x ^ y) else none

/-- Powers of complex numbers, NaN included; `powc` of `num_complex`. -/
noncomputable def powC (a b : Option ℝ) : Option ℂ := match a, b with
  | some a, some b => some ((a : ℂ) ^ (b : ℂ))
  | _, _ => none

/-- Powers of real numbers, NaN included. -/
noncomputable def powR (a b : Option ℝ) : Option ℝ := match a, b with
  | some a, some b => realPow a b
  | _, _ => none

/-- `emath.power` of real arrays, src/python/emath.rs:251-280. -/
noncomputable def emathPower (x p : Held (Option ℝ)) : Option (Arr (Option ℝ) ⊕ Arr (Option ℂ)) :=
  if powerNeedsComplex x p then
    (binaryOp true powC x.mem p.mem x.view p.view none).map .inr
  else
    (binaryOp true powR x.mem p.mem x.view p.view none).map .inl

end Rumpy
