import Mathlib.Data.Rat.Defs
/-!
# What the arguments of a histogram mean
-/

namespace Spec

/-- The argument `bins`: left out, a number, a list of numbers, or something else. -/
inductive BinsArg
  | absent
  | int (n : Int)
  | list (l : List Int)
  | other

/-- A number of bins that a machine can count. -/
def IsBinCount (n : Int) (b : Nat) : Prop := n = b ∧ b < 2 ^ 64

/-- The argument means the bins `bins` of `d` dimensions: ten each, the number each, or those of the list. -/
def BinsMean (d : Nat) : BinsArg → List Nat → Prop
  | .absent, bins => bins = List.replicate d 10
  | .int n, bins => ∃ b, IsBinCount n b ∧ bins = List.replicate d b
  | .list l, bins => l.length = d ∧ List.Forall₂ IsBinCount l bins
  | .other, _ => False

/-- The argument `range` means the limits `r` of `d` dimensions: none, or a list of two for each dimension. -/
def RangeMeans (d : Nat) : Option (List (List ℚ)) → Option (List (ℚ × ℚ)) → Prop
  | none, r => r = none
  | some l, r => l.length = d ∧ ∃ q, r = some q ∧ l = q.map fun p => [p.1, p.2]

end Spec
