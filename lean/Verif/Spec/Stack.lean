import Verif.Spec.View
/-!
# Specification: giving arrays more axes and laying them side by side
-/

namespace Spec

/-- NumPy's `atleast_1d`: a single value becomes a vector. -/
def Nd.atLeast1 (a : Nd α) : Nd α :=
  match a.shape with
  | [] => ⟨[1], fun _ => a.get []⟩
  | _ => a

/-- NumPy's `atleast_2d`: a single value becomes 1 by 1, a vector becomes one row. -/
def Nd.atLeast2 (a : Nd α) : Nd α :=
  match a.shape with
  | [] => ⟨[1, 1], fun _ => a.get []⟩
  | [n] => ⟨[1, n], fun idx => a.get [idx.getD 1 0]⟩
  | _ => a

/-- NumPy's `atleast_3d`: a vector of length `n` becomes 1 by `n` by 1, a matrix gets a last axis of length 1. -/
def Nd.atLeast3 (a : Nd α) : Nd α :=
  match a.shape with
  | [] => ⟨[1, 1, 1], fun _ => a.get []⟩
  | [n] => ⟨[1, n, 1], fun idx => a.get [idx.getD 1 0]⟩
  | [m, n] => ⟨[m, n, 1], fun idx => a.get [idx.getD 0 0, idx.getD 1 0]⟩
  | _ => a

/-- What `column_stack` makes of an array: a single value becomes 1 by 1, a vector becomes one column. -/
def Nd.asColumn (a : Nd α) : Nd α :=
  match a.shape with
  | [] => ⟨[1, 1], fun _ => a.get []⟩
  | [n] => ⟨[n, 1], fun idx => a.get [idx.getD 0 0]⟩
  | _ => a

/-- Arrays can be laid side by side along an axis: there is one, they have the axis, the same rank and the same lengths along
the other axes. -/
def CanJoin (axis : Nat) (arrs : List (Nd α)) : Prop :=
  arrs ≠ [] ∧ ∀ a ∈ arrs, axis < a.shape.length ∧
    ∀ b ∈ arrs, a.shape.length = b.shape.length ∧ ∀ i, i ≠ axis → a.shape.getD i 0 = b.shape.getD i 0

/-- `r` is the arrays laid side by side along an axis, in order. -/
def IsJoin (axis : Nat) (arrs : List (Nd α)) (r : Nd α) : Prop :=
  r.shape.getD axis 0 = (arrs.map fun a => a.shape.getD axis 0).sum ∧
  ∀ k a, arrs[k]? = some a →
    (a.shape.length = r.shape.length ∧ ∀ i, i ≠ axis → a.shape.getD i 0 = r.shape.getD i 0) ∧
    ∀ idx, InShape a.shape idx →
      r.get (idx.modify axis (· + ((arrs.take k).map fun a => a.shape.getD axis 0).sum)) = a.get idx

/-- A shape asked for, in which at most one `-1` stands for "whatever fits", and the shape it means for an array of `n`
elements. The rest must determine the missing length, so it must not contain a zero. -/
def IsResolved (asked : List Int) (n : Nat) (s : List Nat) : Prop :=
  s.length = asked.length ∧ size s = n ∧
  (∀ k, k < asked.length → asked.getD k 0 = -1 ∨ asked.getD k 0 = (s.getD k 0 : Nat)) ∧
  (asked.count (-1) = 0 ∨ asked.count (-1) = 1 ∧ 0 ∉ asked)

end Spec
