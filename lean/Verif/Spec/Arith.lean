import Verif.Spec.Cast
/-!
# Specification: arithmetic of two arrays, and of an array and a Python number
-/

namespace Spec

/-- The arithmetic operators and `maximum`, `minimum`. -/
inductive ArithOp
  | add | sub | mul | div | pow | mod | floorDiv | maximum | minimum
deriving DecidableEq, Repr

/-- The exact value of the ring operations at whole numbers. -/
def ArithOp.whole : ArithOp → Option (Int → Int → Int)
  | .add => some fun m n => m + n
  | .sub => some fun m n => m - n
  | .mul => some fun m n => m * n
  | .maximum => some max
  | .minimum => some min
  | _ => none

/-- The whole number a bool or an integer stands for. -/
def Elem.whole : Elem → Option Int
  | .bool b => some (if b then 1 else 0)
  | .int n => some n
  | _ => none

/-- The exact value of the four operations at numbers; a division by zero has none. -/
def ArithOp.exactly : ArithOp → ℚ → ℚ → Option ℚ
  | .add, x, y => some (x + y)
  | .sub, x, y => some (x - y)
  | .mul, x, y => some (x * y)
  | .div, x, y => if y = 0 then none else some (x / y)
  | _, _, _ => none

/-- The sign of a float. -/
def Flt.sgn : Flt ℚ → Int
  | .num x => if 0 < x then 1 else if x < 0 then -1 else 0
  | .posInf => 1
  | .negInf => -1
  | .nan => 0

/-- An infinity. -/
def Flt.Infinite (x : Flt ℚ) : Prop := x = .posInf ∨ x = .negInf

instance (x : Flt ℚ) : Decidable x.Infinite := by unfold Flt.Infinite; infer_instance

/-- The infinity with a sign; NaN for none. -/
def infOf (s : Int) : Flt ℚ := if 0 < s then .posInf else if s < 0 then .negInf else .nan

/-- The four operations when an operand is an infinity and none is NaN; the quotient by zero depends on the sign of the zero. -/
def ArithOp.limit : ArithOp → Flt ℚ → Flt ℚ → Option (Flt ℚ)
  | .add, x, y => some (if x.Infinite ∧ y.Infinite then infOf (x.sgn + y.sgn) else if x.Infinite then x else y)
  | .sub, x, y => some (if x.Infinite ∧ y.Infinite then infOf (x.sgn - y.sgn) else if x.Infinite then x else infOf (-y.sgn))
  | .mul, x, y => some (infOf (x.sgn * y.sgn))
  | .div, x, y =>
    if x.Infinite ∧ y.Infinite then some .nan else if y.Infinite then some (.num 0)
    else if y = .num 0 then none else some (infOf (x.sgn * y.sgn))
  | _, _, _ => none

/-- `w` is the result of the operation on the floats `x` and `y` of a format: the exact result rounded. -/
def IsArith (p : Nat) (lo hi : Int) (op : ArithOp) (x y w : Flt ℚ) : Prop :=
  (x = .nan ∨ y = .nan → w = .nan) ∧
    (∀ u v q, x = .num u → y = .num v → op.exactly u v = some q → IsRounding p lo hi (.num q) w) ∧
    (x ≠ .nan → y ≠ .nan → x.Infinite ∨ y.Infinite → ∀ l, op.limit x y = some l → w = l)

/-- A number of Python. -/
inductive PyScalar
  | int (n : Int)
  | float (x : Flt ℚ)
  | complex (x y : Flt ℚ)

end Spec
