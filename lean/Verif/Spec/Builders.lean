import Verif.Spec.View
import Mathlib.Algebra.Order.Field.Basic
import Mathlib.Data.Rat.Cast.Order
/-!
# Specification: index iterators, open and dense grids, diagonals
-/

namespace Spec

/-- The points of `start:stop:step`: exactly those of `start`, `start + step`, `start + 2 * step`, … that
come before `stop` in the direction of the step. -/
def IsRange (start stop step : ℚ) (l : List ℚ) : Prop :=
  (∀ i : Nat, i < l.length ↔ (0 < step ∧ start + i * step < stop) ∨ (step < 0 ∧ stop < start + i * step)) ∧
  ∀ (i : Nat) (h : i < l.length), l[i] = start + i * step

/-- `n` evenly spaced points from `start` to `stop`, both included. -/
def IsSpaced (start stop : ℚ) (n : Nat) (l : List ℚ) : Prop :=
  l.length = n ∧ l.head? = some start ∧ l.getLast? = some stop ∧
  ∃ d : ℚ, ∀ (i : Nat) (h : i + 1 < l.length), l[i + 1] - l[i] = d

/-- One axis of an open grid: the points lie along axis `k`, all other axes have length one. -/
def openAxis (n k : Nat) (x : List α) (zero : α) : Nd α :=
  { shape := (List.replicate n 1).set k x.length, get := fun idx => x.getD (idx.getD k 0) zero }

/-- One axis of a dense grid: the value at an index is the point numbered by its `k`-th coordinate. -/
def denseAxis (lens : List Nat) (k : Nat) (x : List α) (zero : α) : Nd α :=
  { shape := lens, get := fun idx => x.getD (idx.getD k 0) zero }

/-- An index on the main diagonal: all coordinates are `i`. -/
def OnDiagonal (i : Nat) (idx : List Nat) : Prop := ∀ x ∈ idx, x = i

instance : Decidable (OnDiagonal i idx) := inferInstanceAs (Decidable (∀ x ∈ idx, x = i))

end Spec
