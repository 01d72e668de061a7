import Mathlib.Order.WithBot
import Mathlib.Algebra.Order.Group.Abs
import Mathlib.Algebra.Order.Ring.Defs
import Verif.Spec.Nd
/-!
# Specification: comparisons, truth values and closeness

A floating-point value is a number, one of the two infinities or NaN.  The numbers and the
infinities form one line; NaN is not on it.
-/

namespace Spec

/-- A floating-point value with numbers from `K`. -/
inductive Flt (K : Type u) where
  | nan
  | negInf
  | num (x : K)
  | posInf
  deriving DecidableEq, Repr

/-- The place of a value on the line from `-inf` to `inf`; NaN has none. -/
def Flt.place : Flt K → Option (WithBot (WithTop K))
  | .nan => none
  | .negInf => some ⊥
  | .num x => some ((x : WithTop K) : WithBot (WithTop K))
  | .posInf => some ((⊤ : WithTop K) : WithBot (WithTop K))

/-- The six comparison operators. -/
inductive Cmp where
  | gt | lt | ge | le | eq | ne
  deriving DecidableEq, Repr

/-- What an operator says about two values of an ordered type. -/
def Cmp.Holds [LT κ] [LE κ] : Cmp → κ → κ → Prop
  | .gt, x, y => y < x
  | .lt, x, y => x < y
  | .ge, x, y => y ≤ x
  | .le, x, y => x ≤ y
  | .eq, x, y => x = y
  | .ne, x, y => x ≠ y

/-- What an operator says about two floats: as on the line, and with a NaN on either side only
`!=` is true. -/
def Cmp.HoldsFlt [LT K] [LE K] (op : Cmp) (x y : Flt K) : Prop :=
  match x.place, y.place with
  | some p, some q => op.Holds p q
  | _, _ => op = .ne

/-- The operator with its sides swapped. -/
def Cmp.swap : Cmp → Cmp
  | .gt => .lt
  | .lt => .gt
  | .ge => .le
  | .le => .ge
  | .eq => .eq
  | .ne => .ne

/-- Closeness of two floats as in `numpy.isclose`: numbers are close when their distance is at most
`atol + rtol * |y|`, an infinity is close only to itself, and NaN is close to NaN exactly when
that was asked for. -/
inductive IsClose [CommRing K] [LinearOrder K] [IsStrictOrderedRing K] (rtol atol : K) (equalNan : Prop) :
    Flt K → Flt K → Prop
  | num {x y : K} : |x - y| ≤ atol + rtol * |y| → IsClose rtol atol equalNan (.num x) (.num y)
  | pos : IsClose rtol atol equalNan .posInf .posInf
  | neg : IsClose rtol atol equalNan .negInf .negInf
  | nan : equalNan → IsClose rtol atol equalNan .nan .nan

/-- The lane of `a` through `idx` along `axis` holds only elements with `p`. -/
def LaneAll (p : α → Prop) (a : Nd α) (axis : Nat) (idx : List Nat) : Prop :=
  ∀ j < a.shape.getD axis 0, p (a.get (idx.insertIdx axis j))

/-- The lane of `a` through `idx` along `axis` holds some element with `p`. -/
def LaneAny (p : α → Prop) (a : Nd α) (axis : Nat) (idx : List Nat) : Prop :=
  ∃ j < a.shape.getD axis 0, p (a.get (idx.insertIdx axis j))

end Spec
