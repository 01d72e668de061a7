import Verif.Spec.Window
/-!
# Model: window functions, `sinc` and `i0` (src/python/creation.rs, src/ops/special.rs)

Over the real numbers; rounding is not modelled.
-/

namespace Rumpy
open Real

/-- The loop of a window function: `f n denom` for `n` from `1 - M` in steps of 2, for example src/python/creation.rs:780-789. -/
noncomputable def windowLoop (f : ℝ → ℝ → ℝ) (m : Int) : List ℝ :=
  (List.range m.toNat).map fun i : Nat => f ((1 - m + 2 * (i : Int) : Int) : ℝ) ((m : ℝ) - 1)

/-- The value in `bartlett`, src/python/creation.rs:783-787. -/
noncomputable def bartlettValue (n denom : ℝ) : ℝ := if n ≤ 0 then 1 + n / denom else 1 - n / denom

/-- `bartlett`, src/python/creation.rs:766-792. -/
noncomputable def bartlett (m : Int) : List ℝ := if m < 1 then [] else if m = 1 then [1] else windowLoop bartlettValue m

/-- `blackman`, src/python/creation.rs:799-823. -/
noncomputable def blackman (m : Int) : List ℝ :=
  if m < 1 then [] else if m = 1 then [1]
  else windowLoop (fun n denom => 0.42 + 0.5 * cos (π * n / denom) + 0.08 * cos (2 * π * n / denom)) m

/-- `hamming`, src/python/creation.rs:830-852. -/
noncomputable def hamming (m : Int) : List ℝ :=
  if m < 1 then [] else if m = 1 then [1] else windowLoop (fun n denom => 0.54 + 0.46 * cos (π * n / denom)) m

/-- `hanning`, src/python/creation.rs:859-881. -/
noncomputable def hanning (m : Int) : List ℝ :=
  if m < 1 then [] else if m = 1 then [1] else windowLoop (fun n denom => 0.5 + 0.5 * cos (π * n / denom)) m

/-- The polynomial of the first branch of `bessel_i0` and `i0_scalar`, src/python/creation.rs:922-923 and src/ops/special.rs:94-95. -/
def besselPoly {K : Type} [Field K] (y : K) : K :=
  1 + y * (35156229 / 10 ^ 7 + y * (30899424 / 10 ^ 7 + y * (12067492 / 10 ^ 7
    + y * (2659732 / 10 ^ 7 + y * (360768 / 10 ^ 7 + y * (45813 / 10 ^ 7))))))

/-- `bessel_i0`, src/python/creation.rs:918-931, and `i0_scalar`, src/ops/special.rs:88-103. -/
noncomputable def besselI0Code (x : ℝ) : ℝ :=
  let ax := |x|
  if ax < 3.75 then besselPoly ((x / 3.75) ^ 2)
  else
    let y := 3.75 / ax
    exp ax / sqrt ax * (0.39894228 + y * (0.01328592 + y * (0.00225319
      + y * (-0.00157565 + y * (0.00916281 + y * (-0.02057706
        + y * (0.02635537 + y * (-0.01647633 + y * 0.00392377))))))))

/-- `kaiser`, src/python/creation.rs:889-915. -/
noncomputable def kaiser (m : Int) (beta : ℝ) : List ℝ :=
  if m < 1 then [] else if m = 1 then [1]
  else
    let alpha := ((m : ℝ) - 1) / 2
    let i0Beta := besselI0Code beta
    (List.range m.toNat).map fun i : Nat =>
      let ratio := ((i : ℝ) - alpha) / alpha
      besselI0Code (beta * sqrt (1 - ratio * ratio)) / i0Beta

/-- The value in `sinc_typed`, src/ops/special.rs:41-46. -/
noncomputable def sincValue (x : ℝ) : ℝ := if x = 0 then 1 else sin (π * x) / (π * x)

end Rumpy
