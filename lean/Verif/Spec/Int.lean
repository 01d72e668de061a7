import Mathlib.Data.Int.Init
/-!
# Specification: the numbers that fixed-width integers stand for
-/

namespace Spec

/-- The number a bit pattern stands for, in a signed or unsigned type. -/
def intValue (signed : Bool) {w : Nat} (x : BitVec w) : Int := if signed then x.toInt else x.toNat

/-- The numbers a type can hold. -/
def InIntRange (signed : Bool) (w : Nat) (x : Int) : Prop :=
  if signed then -2 ^ (w - 1) ≤ x ∧ x < 2 ^ (w - 1) else 0 ≤ x ∧ x < 2 ^ w

instance (signed : Bool) (w : Nat) : DecidablePred (InIntRange signed w) := fun x => by
  unfold InIntRange; infer_instance

/-- Floor division and the remainder with the sign of the divisor, as in Python. -/
def IsFloorDiv (a b q r : Int) : Prop := a = q * b + r ∧ (0 ≤ r ∧ r < b ∨ b < r ∧ r ≤ 0)

end Spec
