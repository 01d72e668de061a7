import Mathlib.Analysis.SpecialFunctions.Complex.Log
import Mathlib.Data.Prod.Lex
import Verif.Spec.Cast
/-!
# Specification: functions of complex numbers
-/

namespace Spec
open Complex

/-- The inverse sine: its sine is `z`, and it lies in the strip of width π around the imaginary axis. -/
def IsArcsin (z w : ℂ) : Prop := sin w = z ∧ |w.re| ≤ Real.pi / 2

/-- The inverse cosine. -/
def IsArccos (z w : ℂ) : Prop := cos w = z ∧ 0 ≤ w.re ∧ w.re ≤ Real.pi

/-- The inverse hyperbolic sine. -/
def IsArcsinh (z w : ℂ) : Prop := sinh w = z ∧ |w.im| ≤ Real.pi / 2

/-- The inverse hyperbolic cosine: the real part is not negative. -/
def IsArccosh (z w : ℂ) : Prop := cosh w = z ∧ 0 ≤ w.re ∧ |w.im| ≤ Real.pi

/-- The inverse hyperbolic tangent. -/
def IsArctanh (z w : ℂ) : Prop := tanh w = z ∧ |w.im| ≤ Real.pi / 2

/-- The square root in the right half-plane. -/
def IsSqrt (z w : ℂ) : Prop := w * w = z ∧ 0 ≤ w.re

/-- A complex number whose parts are not NaN (NaN is `none`). -/
def whole {K : Type} (a : K × K) : Option K × Option K := (some a.1, some a.2)

/-- NumPy's order of complex numbers: by real part, then by imaginary part.  The larger of two. -/
def lexMax {K : Type} [LinearOrder K] (a b : K × K) : K × K := ofLex (max (toLex a) (toLex b))

/-- The smaller of two. -/
def lexMin {K : Type} [LinearOrder K] (a b : K × K) : K × K := ofLex (min (toLex a) (toLex b))

/-- `y` is the largest number of the format. -/
def IsLargest (p : Nat) (lo hi : Int) (y : ℚ) : Prop := IsFloat p lo hi y ∧ ∀ t, IsFloat p lo hi t → t ≤ y

/-- `y` is what `nan_to_num` makes of `x`: a finite number stays, NaN and the infinities are replaced. -/
def IsCleaned (x nan posinf neginf y : Flt ℚ) : Prop :=
  match x with
  | .nan => y = nan
  | .posInf => y = posinf
  | .negInf => y = neginf
  | .num q => y = .num q

end Spec
