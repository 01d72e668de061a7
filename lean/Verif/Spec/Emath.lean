import Mathlib.Analysis.SpecialFunctions.Pow.Complex
import Verif.Spec.Nd
import Verif.Spec.View
import Verif.Spec.DType
/-!
# Specification: real functions continued into the complex numbers
-/

namespace Spec
open Complex

/-- The square root of a real number: of a negative one, on the positive imaginary axis. -/
def SqrtOf (x : ℝ) (w : ℂ) : Prop := w * w = x ∧ 0 ≤ w.re ∧ 0 ≤ w.im

/-- The logarithm to base `b` of a real number other than zero: `b` to the power `w` is `x`, and the angle is 0 or π. -/
def LogOf (b : ℝ) (x : ℝ) (w : ℂ) : Prop := x ≠ 0 → exp (w * Real.log b) = x ∧ 0 ≤ w.im ∧ w.im * Real.log b ≤ Real.pi

/-- The inverse sine of a real number. -/
def ArcsinOf (x : ℝ) (w : ℂ) : Prop := sin w = x ∧ |w.re| ≤ Real.pi / 2 ∧ 0 ≤ w.im

/-- The inverse cosine of a real number. -/
def ArccosOf (x : ℝ) (w : ℂ) : Prop := cos w = x ∧ 0 ≤ w.re ∧ w.re ≤ Real.pi ∧ w.im ≤ 0

/-- The inverse hyperbolic tangent of a real number other than 1 and -1. -/
def ArctanhOf (x : ℝ) (w : ℂ) : Prop := |x| ≠ 1 → tanh w = x ∧ 0 ≤ w.im ∧ w.im ≤ Real.pi / 2

/-- Every element of `y` is related to the element of `x` at its place; NaN (`none`) goes to NaN. -/
def MapsTo {α β : Type} (R : α → β → Prop) (x : Nd (Option α)) (y : Nd (Option β)) : Prop :=
  y.shape = x.shape ∧ ∀ i, InShape x.shape i →
    (x.get i = none → y.get i = none) ∧ ∀ a, x.get i = some a → ∃ b, y.get i = some b ∧ R a b

/-- Every element of `z` is related to the elements of `x` and `y` at its place, after broadcasting; NaN goes to NaN. -/
def ZipsTo {α β γ : Type} (R : α → β → γ → Prop) (x : Nd (Option α)) (y : Nd (Option β)) (z : Nd (Option γ)) : Prop :=
  ∀ i, InShape z.shape i →
    ((x.broadcast z.shape).get i = none ∨ (y.broadcast z.shape).get i = none → z.get i = none) ∧
    ∀ a b, (x.broadcast z.shape).get i = some a → (y.broadcast z.shape).get i = some b → ∃ c, z.get i = some c ∧ R a b c

/-- The logarithm of `x` to base `n`, the quotient of two logarithms on the principal branch. -/
def LognOf (n x : ℝ) (w : ℂ) : Prop :=
  n ≠ 0 → x ≠ 0 → n ≠ 1 → ∃ l m : ℂ, exp l = x ∧ 0 ≤ l.im ∧ l.im ≤ Real.pi ∧ exp m = n ∧ 0 ≤ m.im ∧ m.im ≤ Real.pi ∧ m ≠ 0 ∧ w = l / m

/-- The power of a real number: with a logarithm of `x` on the principal branch, `exp (p · log x)`. -/
def PowerOf (x p : ℝ) (w : ℂ) : Prop :=
  x ≠ 0 → ∃ l : ℂ, exp l = x ∧ 0 ≤ l.im ∧ l.im ≤ Real.pi ∧ w = exp (p * l)

/-- The complex dtype `numpy.emath` converts to. -/
def emathComplex : DType → DType
  | .f32 | .i8 | .i16 | .u8 | .u16 | .c64 => .c64
  | _ => .c128

end Spec
