import Mathlib.Analysis.SpecialFunctions.Log.Basic
import Mathlib.Data.Nat.Choose.Basic
import Mathlib.Algebra.BigOperators.Group.Finset.Basic
/-!
# Spec: distributions

Distribution functions of continuous distributions, finite distributions as lists of weighted outcomes, and the multinomial
weights.
-/

namespace Spec

/-- A finite distribution: outcomes with weights. -/
def Dist (K β : Type) := List (β × K)

/-- Outcomes in sequence: weights multiply. -/
instance [Semiring K] : Monad (Dist K) where
  pure b := [(b, 1)]
  bind d f := List.flatMap (fun e => (f e.1).map fun e' => (e'.1, e.2 * e'.2)) d

/-- The probability of an outcome. -/
def Dist.prob [AddCommMonoid K] [DecidableEq β] (d : Dist K β) (b : β) : K :=
  (d.map fun e => if e.1 = b then e.2 else 0).sum

/-- The binomial distribution: `k` successes in `n` trials. -/
def binomialDist [Ring K] (n : Nat) (p : K) : Dist K Nat :=
  (List.range (n + 1)).map fun k => (k, (n.choose k : K) * p ^ k * (1 - p) ^ (n - k))

/-- The number of ways to deal `n` things into groups of the given sizes. -/
def deals : Nat → List Nat → Nat
  | n, [] => if n = 0 then 1 else 0
  | n, c :: cs => if c ≤ n then n.choose c * deals (n - c) cs else 0

/-- The weight of the counts `cs` when each of `n` things goes to group `i` with probability `ps i`. -/
def multinomialWeight [Semiring K] (n : Nat) (ps : List K) (cs : List Nat) : K :=
  if ps.length = cs.length then (deals n cs : K) * (List.zipWith (fun p c => p ^ c) ps cs).prod else 0

/-- The distribution function of the Laplace distribution. -/
noncomputable def laplaceCdf (loc scale t : ℝ) : ℝ :=
  if t < loc then Real.exp ((t - loc) / scale) / 2 else 1 - Real.exp (-(t - loc) / scale) / 2

/-- The distribution function of the logistic distribution. -/
noncomputable def logisticCdf (loc scale t : ℝ) : ℝ := 1 / (1 + Real.exp (-(t - loc) / scale))

/-- The distribution function of the Rayleigh distribution. -/
noncomputable def rayleighCdf (scale t : ℝ) : ℝ := if t < 0 then 0 else 1 - Real.exp (-(t ^ 2) / (2 * scale ^ 2))

/-- A number drawn from `(0, 1)` uniformly is turned into one with distribution function `F`: `x u ≤ t` happens for the `u` up to
`F t`. -/
def Inverts (x : ℝ → Option ℝ) (F : ℝ → ℝ) : Prop :=
  ∀ u, 0 < u → u < 1 → ∃ y, x u = some y ∧ ∀ t, y ≤ t ↔ u ≤ F t

/-- The density of the von Mises distribution up to a constant, at an angle with cosine `w` from the mean. -/
noncomputable def vonMisesDensity (kappa w : ℝ) : ℝ := Real.exp (kappa * w)

/-- The density of the wrapped Cauchy distribution up to a constant, from which the angles are proposed: `r` is
`(1 + ρ²) / (2ρ)`. -/
noncomputable def wrappedCauchyDensity (r w : ℝ) : ℝ := 1 / (r - w)

/-- A matrix is positive definite. -/
def PosDefN (d : Nat) (cov : Nat → Nat → ℝ) : Prop :=
  (∀ i j, cov i j = cov j i) ∧
    ∀ x : Nat → ℝ, (∃ i < d, x i ≠ 0) → 0 < ∑ i ∈ Finset.range d, ∑ j ∈ Finset.range d, x i * cov i j * x j

end Spec
