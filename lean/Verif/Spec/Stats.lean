import Mathlib.Algebra.Order.Field.Rat
import Verif.Spec.Nd
/-!
# Specification: percentiles, bins and counts
-/

namespace Spec

/-- `y` is the `p`-th percentile of `l` with linear interpolation: sort `l`, go to the (fractional) position
`p/100 * (n-1)`, and interpolate between the two neighbours. -/
def IsPercentile (l : List ℚ) (p y : ℚ) : Prop :=
  ∃ s : List ℚ, s.Perm l ∧ s.Pairwise (· ≤ ·) ∧
    ∃ (k : Nat) (t : ℚ), 0 ≤ t ∧ t < 1 ∧ (k : ℚ) + t = p / 100 * ((l.length : ℚ) - 1) ∧
      ∃ x z, s[k]? = some x ∧ (t ≠ 0 → s[k + 1]? = some z) ∧ y = x + t * (z - x)

/-- `y` is the median of `l`: the middle entry of the sorted list, or the mean of the two middle entries. -/
def IsMedian (l : List ℚ) (y : ℚ) : Prop :=
  ∃ s : List ℚ, s.Perm l ∧ s.Pairwise (· ≤ ·) ∧
    ((∃ m, l.length = 2 * m + 1 ∧ s[m]? = some y) ∨
      ∃ m x z, l.length = 2 * m + 2 ∧ s[m]? = some x ∧ s[m + 1]? = some z ∧ y = (x + z) / 2)

/-- Edge `i` when `[lo, hi]` is cut into `bins` equal bins. -/
def edge (lo hi : ℚ) (bins i : Nat) : ℚ := lo + i * ((hi - lo) / bins)

/-- `x` belongs to bin `i`: bins contain their left edge and not their right edge, except the last, which
contains both. -/
def InBin (lo hi : ℚ) (bins i : Nat) (x : ℚ) : Prop :=
  i < bins ∧ edge lo hi bins i ≤ x ∧ (x < edge lo hi bins (i + 1) ∨ (i + 1 = bins ∧ x = hi))

instance (lo hi : ℚ) (bins i : Nat) (x : ℚ) : Decidable (InBin lo hi bins i x) :=
  inferInstanceAs (Decidable (_ ∧ _ ∧ _))

/-- Bin by bin in several dimensions: coordinates, ranges, numbers of bins, and the multi-index of the box. -/
def InBox : List ℚ → List (ℚ × ℚ) → List Nat → List Nat → Prop
  | x :: xs, r :: rs, b :: bs, i :: is => InBin r.1 r.2 b i x ∧ InBox xs rs bs is
  | [], [], [], [] => True
  | _, _, _, _ => False

instance InBox.decidable : (xs : List ℚ) → (rs : List (ℚ × ℚ)) → (bs is : List Nat) → Decidable (InBox xs rs bs is)
  | x :: xs, r :: rs, b :: bs, i :: is =>
    have := InBox.decidable xs rs bs is
    inferInstanceAs (Decidable (InBin r.1 r.2 b i x ∧ InBox xs rs bs is))
  | [], [], [], [] => isTrue trivial
  | [], [], [], _ :: _ => isFalse id
  | [], [], _ :: _, _ => isFalse id
  | [], _ :: _, _, _ => isFalse id
  | _ :: _, [], _, _ => isFalse id
  | _ :: _, _ :: _, [], _ => isFalse id
  | _ :: _, _ :: _, _ :: _, [] => isFalse id

end Spec
