import Mathlib.Order.Basic
import Verif.Spec.Nd
/-!
# Specification: positions of extreme values, running reductions and differences
-/

namespace Spec

/-- `k` is the first position of the largest value of `l`. -/
def FirstMax [LT κ] [LE κ] (l : List κ) (k : Nat) : Prop :=
  ∃ h : k < l.length, (∀ y ∈ l, y ≤ l[k]) ∧ ∀ (j : Nat) (hj : j < k), l[j] < l[k]

/-- `k` is the first position of the smallest value of `l`. -/
def FirstMin [LT κ] [LE κ] (l : List κ) (k : Nat) : Prop :=
  ∃ h : k < l.length, (∀ y ∈ l, l[k] ≤ y) ∧ ∀ (j : Nat) (hj : j < k), l[k] < l[j]

/-- Running reduction: entry `k` combines the first `k + 1` entries from the left. -/
def running (op : β → α → β) (e : β) (l : List α) : List β :=
  (List.range l.length).map fun k => (l.take (k + 1)).foldl op e

namespace Nd

/-- Running reduction along an axis: each entry combines the entries of its lane up to itself. -/
def running (op : α → α → α) (e : α) (a : Nd α) (axis : Nat) : Nd α :=
  { shape := a.shape
    get := fun idx => ((List.range (idx.getD axis 0 + 1)).map fun j => a.get (idx.set axis j)).foldl op e }

/-- Differences of neighbours along an axis; the axis gets one shorter. -/
def differences (sub : α → α → α) (a : Nd α) (axis : Nat) : Nd α :=
  { shape := a.shape.set axis (a.shape.getD axis 0 - 1)
    get := fun idx => sub (a.get (idx.set axis (idx.getD axis 0 + 1))) (a.get idx) }

/-- Differences of order `n`. -/
def differencesN (sub : α → α → α) : Nat → Nd α → Nat → Nd α
  | 0, a, _ => a
  | n + 1, a, axis => differencesN sub n (a.differences sub axis) axis

/-- All entries but the first along an axis. -/
def tailAxis (a : Nd α) (axis : Nat) : Nd α :=
  { shape := a.shape.set axis (a.shape.getD axis 0 - 1)
    get := fun idx => a.get (idx.set axis (idx.getD axis 0 + 1)) }

/-- One extra entry `x` in front of every lane along an axis. -/
def consAxis (x : α) (a : Nd α) (axis : Nat) : Nd α :=
  { shape := a.shape.set axis (a.shape.getD axis 0 + 1)
    get := fun idx => if idx.getD axis 0 = 0 then x else a.get (idx.set axis (idx.getD axis 0 - 1)) }

end Nd

end Spec
