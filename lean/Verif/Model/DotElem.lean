import Verif.Model.Arith

/-!
# Model: `dot` of vectors and scalars for every dtype
-/

namespace Rumpy

open Spec

/-- `get_element`, src/array/mod.rs:144-152, of an index inside the shape. -/
def elemF64 (h : Held Elem) (idx : List Nat) : Flt ℚ := (readF64 (h.mem (h.view.addr idx))).getD (.num 0)

/-- `sum += x * y` on doubles, src/ops/dot.rs:23. -/
def dotStep (s : Flt ℚ) (xy : Flt ℚ × Flt ℚ) : Flt ℚ := fltAdd 53 (-1074) 971 s (fltMul 53 (-1074) 971 xy.1 xy.2)

/-- `dot`, src/ops/dot.rs:14-43; `mm` is the result of `matmul`, to which the other ranks are passed. -/
def dotElem (pw : Powf) (neg : Bool) (mm : Outcome (DType × Arr Elem)) (a b : DType) (h g : Held Elem) : Outcome (DType × Arr Elem) :=
  if h.view.shape.length = 1 ∧ g.view.shape.length = 1 then
    if h.view.shape.getD 0 0 ≠ g.view.shape.getD 0 0 then .error
    else .ok (a, ⟨[], [writeF64 a (((List.range (h.view.shape.getD 0 0)).map fun i => (elemF64 h [i], elemF64 g [i])).foldl dotStep (.num 0))]⟩)
  else if h.view.shape.length = 0 then scalarOp pw neg .mul b g (.float (elemF64 h []))
  else if g.view.shape.length = 0 then scalarOp pw neg .mul a h (.float (elemF64 g []))
  else mm

end Rumpy
