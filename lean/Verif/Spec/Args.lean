import Mathlib.Data.List.Forall2
import Mathlib.Data.Int.Order.Basic
/-!
# Specification: what index and shape arguments mean
-/

namespace Spec

/-- A Python object given as an argument: an integer, a tuple, a list, or something else. -/
inductive PyArg where
  | int (n : Int)
  | tuple (l : List PyArg)
  | list (l : List PyArg)
  | other

/-- A tuple or list with these items. -/
def PyArg.Seq (a : PyArg) (items : List PyArg) : Prop := a = .tuple items ∨ a = .list items

/-- A width: before and after, or one number for both. -/
def PyArg.IsPair (a : PyArg) (p : Nat × Nat) : Prop :=
  a.Seq [.int p.1, .int p.2] ∨ (a.Seq [.int p.1] ∧ p.1 = p.2)

/-- The widths that a `pad_width` argument means for an array with `n` axes: one number for all sides, one pair for all
axes, or a pair for each axis. -/
def IsPadWidth (n : Nat) (arg : PyArg) (w : List (Nat × Nat)) : Prop :=
  (∃ k : Nat, (arg = .int k ∨ arg.Seq [.int k]) ∧ w = List.replicate n (k, k)) ∨
  (∃ b a : Nat, arg.Seq [.int b, .int a] ∧ w = List.replicate n (b, a)) ∨
  (∃ item p, arg.Seq [item] ∧ item.IsPair p ∧ w = List.replicate n p) ∨
  (∃ items, arg.Seq items ∧ items.length = n ∧ List.Forall₂ PyArg.IsPair items w)

/-- The repetitions that a `reps` argument means: an integer or a sequence of integers, none of them negative. -/
def IsReps (arg : PyArg) (r : List Nat) : Prop :=
  (∃ k : Nat, arg = .int k ∧ r = [k]) ∨ arg.Seq (r.map fun (k : Nat) => .int k)

/-- The axis `k` of an array with `n` axes, which may be counted from the end. -/
def IsAxisOf (n : Nat) (x : Int) (k : Nat) : Prop := k < n ∧ (x = k ∨ x = (k : Int) - n)

/-- One axis or a sequence of axes. -/
def PyArg.IsAxes (a : PyArg) (n : Nat) (ks : List Nat) : Prop :=
  (∃ x k, a = .int x ∧ IsAxisOf n x k ∧ ks = [k]) ∨
  ∃ xs : List Int, a.Seq (xs.map .int) ∧ List.Forall₂ (IsAxisOf n) xs ks

/-- The axes that an `axes` argument of `tensordot` means for arrays with `m` and `n` axes: so many of the last axes of
the first with as many of the first axes of the second, or axes of the one and of the other. -/
def IsDotAxes (m n : Nat) (arg : PyArg) (p q : List Nat) : Prop :=
  (∃ k : Nat, arg = .int k ∧ k ≤ m ∧ k ≤ n ∧ p = (List.range k).map (m - k + ·) ∧ q = List.range k) ∨
  ∃ x y, arg.Seq [x, y] ∧ x.IsAxes m p ∧ y.IsAxes n q ∧ p.length = q.length

end Spec
