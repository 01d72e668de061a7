import Verif.Model.Arith
/-!
# Model: angles in degrees and radians (src/python/ufuncs.rs)
-/

namespace Rumpy
open Spec

/-- `std::f64::consts::PI`. -/
def pi64 : ℚ := 884279719003555 / 2 ^ 48

/-- The factors of src/python/ufuncs.rs:502 and 516: `PI / 180.0` and `180.0 / PI`. -/
def degToRad : Flt ℚ := roundBin 53 (-1074) 971 (pi64 / 180)
def radToDeg : Flt ℚ := roundBin 53 (-1074) 971 (180 / pi64)

/-- The array case shared by `deg2rad` and `rad2deg` (src/python/ufuncs.rs:503-511, 517-525). -/
def angleArr (pw : Powf) (neg : Bool) (factor : Flt ℚ) (d : DType) (h : Held Elem) : Outcome (DType × Arr Elem) :=
  if d ≠ .f64 ∧ d ≠ .f32 then scalarOp pw neg .mul .f64 (recast d .f64 h) (.float factor)
  else scalarOp pw neg .mul d h (.float factor)

/-- `deg2rad` of an array and of a number (src/python/ufuncs.rs:501-512; `apply_unary`, 28-46). -/
def deg2rad (pw : Powf) (neg : Bool) (d : DType) (h : Held Elem) : Outcome (DType × Arr Elem) := angleArr pw neg degToRad d h
def deg2radNum (neg : Bool) (x : Flt ℚ) : Flt ℚ := floatKernel 53 (-1074) 971 neg .mul x degToRad

/-- `rad2deg` of an array and of a number (src/python/ufuncs.rs:515-526; `apply_unary`, 28-46). -/
def rad2deg (pw : Powf) (neg : Bool) (d : DType) (h : Held Elem) : Outcome (DType × Arr Elem) := angleArr pw neg radToDeg d h
def rad2degNum (neg : Bool) (x : Flt ℚ) : Flt ℚ := floatKernel 53 (-1074) 971 neg .mul x radToDeg

/-- `radians` and `degrees` (src/python/ufuncs.rs:530-532, 536-538). -/
def radians (pw : Powf) (neg : Bool) (d : DType) (h : Held Elem) : Outcome (DType × Arr Elem) := deg2rad pw neg d h
def degrees (pw : Powf) (neg : Bool) (d : DType) (h : Held Elem) : Outcome (DType × Arr Elem) := rad2deg pw neg d h

end Rumpy
