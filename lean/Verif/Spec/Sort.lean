import Mathlib.Order.Defs.LinearOrder
import Verif.Spec.Nd
/-!
# Specification: sorted orders, partitions, distinct values
-/

namespace Spec

/-- `p` lists the positions of `keys` in increasing order of their keys, equal keys in their
original order. -/
def StableOrder [LT κ] (keys : List κ) (p : List Nat) : Prop :=
  p.Perm (List.range keys.length) ∧
  p.Pairwise fun a b => ∃ x y, keys[a]? = some x ∧ keys[b]? = some y ∧ (x < y ∨ x = y ∧ a < b)

/-- `b` holds the elements of `a` in increasing order of their keys. -/
def SortedCopy [LE κ] (key : α → κ) (a b : List α) : Prop :=
  b.Perm a ∧ b.Pairwise fun x y => key x ≤ key y

/-- Position `a` comes before position `b` when several keys are compared, the last key first: at
the last key where they differ, `a` is smaller; when they agree in all keys, `a < b`. -/
def LexBefore [LT κ] (keys : List (Nat → κ)) (a b : Nat) : Prop :=
  (∃ k rest, (∃ pre, keys = pre ++ k :: rest) ∧ (∀ r ∈ rest, r a = r b) ∧ k a < k b) ∨
  ((∀ k ∈ keys, k a = k b) ∧ a < b)

/-- `l` is partitioned around position `k`: nothing before it is larger, nothing after it is
smaller. -/
def PartitionedAt [LE κ] (l : List κ) (k : Nat) : Prop :=
  ∃ x, l[k]? = some x ∧ (∀ i y, i < k → l[i]? = some y → y ≤ x) ∧ ∀ i y, k < i → l[i]? = some y → x ≤ y

/-- The entries of `l`, each once, in increasing order. -/
def SortedSet [LT κ] (l : List κ) (P : κ → Prop) : Prop :=
  l.Pairwise (· < ·) ∧ ∀ x, x ∈ l ↔ P x

/-- The lane along `axis` through the remaining coordinates `idx`. -/
def Nd.lane (a : Nd α) (axis : Nat) (idx : List Nat) : List α :=
  (List.range (a.shape.getD axis 0)).map fun j => a.get (idx.insertIdx axis j)

end Spec
