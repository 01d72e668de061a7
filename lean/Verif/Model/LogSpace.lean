import Mathlib.Analysis.SpecialFunctions.Pow.Real
/-!
# Model: logspace and geomspace

Floats are exact real numbers; `store` is `write_f64` of the result's dtype.
-/

namespace Rumpy

/-- `logspace`, src/array/manipulation.rs:481-499. -/
noncomputable def logspace (store : ℝ → α) (start stop : ℝ) (num : Nat) (base : ℝ) : List α :=
  let step := if num > 1 then (stop - start) / ((num - 1 : Nat) : ℝ) else 0
  (List.range num).map fun i : Nat => store (base ^ (start + i * step))

/-- `geomspace`, src/array/manipulation.rs:503-529. -/
noncomputable def geomspace (store : ℝ → α) (start stop : ℝ) (num : Nat) : Option (List α) :=
  if start * stop ≤ 0 then none
  else
    let sign : ℝ := if start < 0 then -1 else 1
    let logStart := Real.log |start|
    let logStop := Real.log |stop|
    let step := if num > 1 then (logStop - logStart) / ((num - 1 : Nat) : ℝ) else 0
    some ((List.range num).map fun i : Nat => store (sign * Real.exp (logStart + i * step)))

end Rumpy
