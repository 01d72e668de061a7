import Verif.Spec.NestedList
import Mathlib.Algebra.Order.Field.Basic
import Mathlib.Data.Rat.Floor
import Mathlib.Algebra.Order.Field.Power

/-!
# Specification: rounding to decimals and clipping
-/

namespace Spec

/-- A number with at most `d` decimals; for negative `d`, a multiple of `10^(-d)`. -/
def IsDecimal (d : Int) (y : Rat) : Prop := ∃ m : Int, y * 10 ^ d = m

/-- A number with `d` decimals that no other such number is closer to `x` than. -/
def IsRounded (d : Int) (x y : Rat) : Prop := IsDecimal d y ∧ ∀ z, IsDecimal d z → |x - y| ≤ |x - z|

/-- Halfway between two numbers with `d` decimals. -/
def IsTie (d : Int) (x : Rat) : Prop := ∃ m : Int, x * 10 ^ d = m + 1 / 2

/-- NumPy's choice: of two equally close numbers, the one with the even last digit. -/
def NumpyRounded (d : Int) (x y : Rat) : Prop := IsRounded d x y ∧ (IsTie d x → ∃ m : Int, y * 10 ^ d = 2 * m)

/-- The value limited to the bounds that are given. -/
def clipped (lo hi : Option Rat) (x : Rat) : Rat :=
  let y := match lo with
    | some l => max x l
    | none => x
  match hi with
  | some h => min y h
  | none => y

end Spec
