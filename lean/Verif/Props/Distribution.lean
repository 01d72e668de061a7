import Verif.Lemmas.Distribution
import Verif.Props.Random
import Mathlib.Analysis.Convex.SpecificFunctions.Basic
import Mathlib.Tactic.NormNum
/-!
# C76: the laws of random distributions

Exact arithmetic: rounding is not modelled. Draws of `rand_distr` enter by contract.
-/

namespace Props
open Rumpy Spec

/-! ### Inverse distribution functions -/

/-- `uniform(low, high)` lies in `[low, high)`, and below `t` exactly for the draws up to the share of the interval below `t`. -/
theorem C76_uniform {K : Type} [Field K] [LinearOrder K] [IsStrictOrderedRing K] (low high u : K) (h : low < high) (h0 : 0 ≤ u)
    (h1 : u < 1) :
    low ≤ uniformOf low high u ∧ uniformOf low high u < high ∧
      ∀ t, uniformOf low high u ≤ t ↔ u ≤ (t - low) / (high - low) := by
  have hd : 0 < high - low := sub_pos.2 h
  unfold uniformOf
  refine ⟨by nlinarith, by nlinarith, fun t => ?_⟩
  rw [le_div_iff₀ hd]
  constructor <;> intro <;> linarith

example : uniformOf (2 : ℚ) 6 (1 / 4) = 3 := by norm_num [uniformOf]

/-- The logarithm of `f64`: finite for positive numbers only. -/
noncomputable def realLn (x : ℝ) : Option ℝ := if 0 < x then some (Real.log x) else none

/-- `laplace` inverts the distribution function of the Laplace distribution. Missing: a draw of zero, see
`C76_infinite_counterexample`. -/
theorem C76_laplace_partial (loc scale : ℝ) (hs : 0 < scale) :
    Inverts (laplaceOf realLn loc scale) (laplaceCdf loc scale) := by
  intro u h0 h1
  unfold laplaceOf signum laplaceCdf
  dsimp only
  by_cases hu : u - 1 / 2 < 0
  · have e : 1 - 2 * -(u - 1 / 2) = 2 * u := by ring
    rw [if_pos hu, if_pos hu, e]
    have hp : 0 < 2 * u := by linarith
    refine ⟨loc - scale * -1 * Real.log (2 * u), ?_, fun t => ?_⟩
    · unfold realLn
      rw [if_pos hp]
      rfl
    · have hneg : Real.log (2 * u) < 0 := Real.log_neg hp (by linarith)
      have hiff : loc - scale * -1 * Real.log (2 * u) ≤ t ↔ 2 * u ≤ Real.exp ((t - loc) / scale) := by
        rw [← Real.log_le_iff_le_exp hp, le_div_iff₀ hs]
        constructor <;> intro <;> linarith
      by_cases ht : t < loc
      · rw [if_pos ht, hiff]
        constructor <;> intro <;> linarith
      · rw [if_neg ht]
        have ht := not_lt.1 ht
        have : Real.exp (-(t - loc) / scale) ≤ 1 := by
          rw [Real.exp_le_one_iff]
          exact div_nonpos_of_nonpos_of_nonneg (by linarith) hs.le
        constructor
        · intro _
          linarith
        · intro _
          nlinarith
  · have e : 1 - 2 * (u - 1 / 2) = 2 * (1 - u) := by ring
    rw [if_neg hu, if_neg hu, e]
    have hp : 0 < 2 * (1 - u) := by linarith
    refine ⟨loc - scale * 1 * Real.log (2 * (1 - u)), ?_, fun t => ?_⟩
    · unfold realLn
      rw [if_pos hp]
      rfl
    · have hu := not_lt.1 hu
      have hneg : Real.log (2 * (1 - u)) ≤ 0 := Real.log_nonpos hp.le (by linarith)
      have hiff : loc - scale * 1 * Real.log (2 * (1 - u)) ≤ t ↔ Real.exp (-(t - loc) / scale) ≤ 2 * (1 - u) := by
        rw [← Real.le_log_iff_exp_le hp, div_le_iff₀ hs]
        constructor <;> intro <;> linarith
      by_cases ht : t < loc
      · rw [if_pos ht]
        have : Real.exp ((t - loc) / scale) < 1 := by
          rw [Real.exp_lt_one_iff]
          exact div_neg_of_neg_of_pos (by linarith) hs
        constructor
        · intro h
          nlinarith
        · intro h
          linarith
      · rw [if_neg ht, hiff]
        constructor <;> intro <;> linarith

example : laplaceOf realLn 3 2 (1 / 2) = some 3 := by
  norm_num [laplaceOf, signum, realLn]

/-- `logistic` inverts the distribution function of the logistic distribution. Missing: a draw of zero. -/
theorem C76_logistic_partial (loc scale : ℝ) (hs : 0 < scale) :
    Inverts (logisticOf realLn loc scale) (logisticCdf loc scale) := by
  intro u h0 h1
  have h1' : 0 < 1 - u := by linarith
  have hp : 0 < u / (1 - u) := div_pos h0 h1'
  unfold logisticOf logisticCdf
  rw [if_neg h1'.ne']
  refine ⟨loc + scale * Real.log (u / (1 - u)), ?_, fun t => ?_⟩
  · unfold realLn
    rw [if_pos hp]
    rfl
  · have hiff : loc + scale * Real.log (u / (1 - u)) ≤ t ↔ u / (1 - u) ≤ Real.exp ((t - loc) / scale) := by
      rw [← Real.log_le_iff_le_exp hp, le_div_iff₀ hs]
      constructor <;> intro <;> linarith
    rw [hiff, div_le_iff₀ h1', neg_div, Real.exp_neg]
    have hE := Real.exp_pos ((t - loc) / scale)
    generalize Real.exp ((t - loc) / scale) = E at hE ⊢
    have e : 1 / (1 + E⁻¹) = E / (E + 1) := by field_simp
    rw [e, le_div_iff₀ (by linarith)]
    constructor <;> intro <;> linarith

example : logisticOf realLn 3 2 (1 / 2) = some 3 := by norm_num [logisticOf, realLn]

/-- `rayleigh` inverts the distribution function of the Rayleigh distribution. -/
theorem C76_rayleigh (scale : ℝ) (hs : 0 < scale) :
    Inverts (rayleighOf realLn realSqrt scale) (rayleighCdf scale) ∧ rayleighOf realLn realSqrt scale 0 = some 0 := by
  refine ⟨?_, by simp [rayleighOf, realLn, realSqrt]⟩
  intro u h0 h1
  have hp : 0 < 1 - u := by linarith
  have hneg : Real.log (1 - u) < 0 := Real.log_neg hp (by linarith)
  have hq : 0 ≤ -2 * Real.log (1 - u) := by linarith
  unfold rayleighOf rayleighCdf
  refine ⟨scale * Real.sqrt (-2 * Real.log (1 - u)), ?_, fun t => ?_⟩
  · unfold realLn realSqrt
    rw [if_pos hp, Option.bind_some, if_pos hq]
    rfl
  · have hr : 0 < Real.sqrt (-2 * Real.log (1 - u)) := Real.sqrt_pos.2 (by linarith)
    by_cases ht : t < 0
    · rw [if_pos ht]
      constructor
      · intro h
        have := mul_pos hs hr
        linarith
      · intro h
        linarith
    · rw [if_neg ht]
      have ht := not_lt.1 ht
      have e1 : scale * Real.sqrt (-2 * Real.log (1 - u)) ≤ t ↔ Real.sqrt (-2 * Real.log (1 - u)) ≤ t / scale := by
        rw [le_div_iff₀ hs, mul_comm]
      rw [e1, Real.sqrt_le_left (div_nonneg ht hs.le)]
      have e2 : -2 * Real.log (1 - u) ≤ (t / scale) ^ 2 ↔ -(t ^ 2) / (2 * scale ^ 2) ≤ Real.log (1 - u) := by
        have : -(t ^ 2) / (2 * scale ^ 2) = -((t / scale) ^ 2) / 2 := by field_simp
        rw [this]
        constructor <;> intro <;> linarith
      rw [e2, Real.le_log_iff_exp_le hp]
      constructor <;> intro <;> linarith

/-- A draw of zero, which `next_f64` can return, gives an infinite number. NumPy draws again. -/
theorem C76_infinite_counterexample (loc scale : ℝ) :
    laplaceOf realLn loc scale 0 = none ∧ logisticOf realLn loc scale 0 = none := by
  constructor
  · norm_num [laplaceOf, realLn]
  · norm_num [logisticOf, realLn]

/-! ### multinomial and dirichlet -/

/-- The law of `multinomial`: when every draw on the way has the binomial distribution, the probability of the counts `c` is
`n! / (c₁! ⋯ cₖ!) · p₁^c₁ ⋯ pₖ^cₖ`, for every `n`, every number of categories and all probabilities that sum to one. -/
theorem C76_multinomial_law {K : Type} [Field K] [LinearOrder K] [IsStrictOrderedRing K] (n : Nat) (pvals : List K) (hne : pvals ≠ [])
    (hp : ∀ p ∈ pvals, 0 ≤ p) (hsum : pvals.sum = 1) (c : List Nat) :
    (multinomialRow (M := Dist K) binomialDist n 1 pvals).prob c = multinomialWeight n pvals c := by
  have := multinomialRow_law pvals hne hp n 1 hsum.symm c
  rwa [one_pow, one_mul] at this

/-- The number of deals is the multinomial coefficient. -/
theorem C76_deals (n : Nat) (c : List Nat) :
    deals n c * (c.map Nat.factorial).prod = if c.sum = n then n.factorial else 0 := by
  induction c generalizing n with
  | nil =>
    by_cases h : n = 0
    · subst h; rfl
    · have : ¬ (List.sum [] = n) := fun e => h (by simpa using e.symm)
      rw [deals, if_neg h, if_neg this, Nat.zero_mul]
  | cons y cs ih =>
    rw [deals, List.map_cons, List.prod_cons, List.sum_cons]
    by_cases hy : y ≤ n
    · rw [if_pos hy]
      have e : n.choose y * deals (n - y) cs * (y.factorial * (cs.map Nat.factorial).prod) =
          n.choose y * y.factorial * (deals (n - y) cs * (cs.map Nat.factorial).prod) := by ring
      rw [e, ih]
      by_cases hs : cs.sum = n - y
      · rw [if_pos hs, if_pos (by omega), Nat.choose_mul_factorial_mul_factorial hy]
      · rw [if_neg hs, if_neg (by omega), Nat.mul_zero]
    · rw [if_neg hy, if_neg (by omega), Nat.zero_mul]

example : (multinomialRow (M := Dist ℚ) binomialDist 3 1 [1/2, 1/3, 1/6]).prob [1, 2, 0] = 1 / 6 := by
  rw [C76_multinomial_law 3 _ (by simp) (by norm_num) (by norm_num)]
  norm_num [multinomialWeight, deals, Nat.choose]

/-- Every row of `multinomial` has one count for each category, and the counts sum to `n`; with probabilities that are not
negative and sum to at most one, no draw panics. -/
theorem C76_multinomial_partial {K : Type} [Field K] [LinearOrder K] [IsStrictOrderedRing K] {σ : Type}
    (draw : Nat → K → σ → Nat × σ) (hdraw : ∀ n p g, (draw n p g).1 ≤ n) (n : Nat) (pvals : List K) (hne : pvals ≠ [])
    (hp : ∀ p ∈ pvals, 0 ≤ p) (hsum : pvals.sum ≤ 1) (size : Nat) (g : σ) :
    ∃ (rows : List (List Nat)) (g' : σ), multinomial draw n pvals size g = some (([size, pvals.length], rows.flatten), g') ∧ rows.length = size ∧
      ∀ r ∈ rows, r.length = pvals.length ∧ r.sum = n := by
  have hl : ¬ pvals.length = 0 := by simpa using hne
  obtain ⟨rows, g', h1, h2, h3⟩ := rowsOf_run (multinomialRow (binomialDraw draw) n 1 pvals)
    (fun r => r.length = pvals.length ∧ r.sum = n) (fun g => multinomialRow_run draw hdraw pvals hne hp n 1 hsum g) size g
  refine ⟨rows, g', ?_, h2, h3⟩
  unfold multinomial
  dsimp only
  rw [if_neg hl, h1]
  rfl

example : multinomial (fun n (p : ℚ) (g : Nat) => (n * p.num.toNat / p.den, g + 1)) 7 [1/2, 1/4, 1/4] 2 0 =
    some (([2, 3], [3, 2, 2, 3, 2, 2]), 4) := by decide +kernel

/-- Probabilities that sum to more than one, or no categories, make it panic. NumPy raises an error; without a size it gives one
row without the first axis. -/
theorem C76_multinomial_counterexample :
    multinomial (fun n (_ : ℚ) (g : Nat) => (n, g)) 7 [1/2, 3/4, 0] 1 0 = none ∧
    multinomial (fun n (_ : ℚ) (g : Nat) => (n, g)) 7 [] 1 0 = none ∧
    (multinomial (fun n (_ : ℚ) (g : Nat) => (n, g)) 7 [1] 1 0).map (fun r => r.1.1) = some [1, 1] := by decide +kernel

/-- Every row of `dirichlet` consists of shares: not negative, with sum one, in the proportions of the gamma samples. -/
theorem C76_dirichlet {K : Type} [Field K] [LinearOrder K] [IsStrictOrderedRing K] (k : Nat) (samples : List (List K))
    (hk : 0 < k) (hlen : ∀ s ∈ samples, s.length = k) (hpos : ∀ s ∈ samples, ∀ x ∈ s, 0 < x) :
    ∃ rows, dirichlet k samples = some ([samples.length, k], rows.flatten) ∧
      List.Forall₂ (fun s r => r.length = k ∧ r.sum = 1 ∧ (∀ x ∈ r, 0 ≤ x ∧ x ≤ 1) ∧ s = r.map fun x => x * s.sum) samples rows := by
  have one : ∀ s ∈ samples, ∃ r, dirichletRow s = some r ∧ r.length = k ∧ r.sum = 1 ∧ (∀ x ∈ r, 0 ≤ x ∧ x ≤ 1) ∧
      s = r.map fun x => x * s.sum := by
    intro s hs
    have hsp : 0 < s.sum := by
      cases s with
      | nil => have := hlen _ hs; simp at this; omega
      | cons x s =>
        rw [List.sum_cons]
        exact add_pos_of_pos_of_nonneg (hpos _ hs x (by simp))
          (List.sum_nonneg fun y hy => (hpos _ hs y (List.mem_cons_of_mem _ hy)).le)
    refine ⟨s.map fun g => g / s.sum, ?_, by rw [List.length_map, hlen s hs], ?_, ?_, ?_⟩
    · unfold dirichletRow
      dsimp only
      rw [if_neg hsp.ne']
    · have : ∀ (l : List K) (c : K), (l.map fun g => g / c).sum = l.sum / c := by
        intro l c
        induction l with
        | nil => simp
        | cons x l ih => rw [List.map_cons, List.sum_cons, ih, List.sum_cons, add_div]
      rw [this, div_self hsp.ne']
    · intro x hx
      obtain ⟨g, hg, rfl⟩ := List.mem_map.1 hx
      exact ⟨div_nonneg (hpos s hs g hg).le hsp.le,
        (div_le_one hsp).2 (List.single_le_sum (fun y hy => (hpos s hs y hy).le) g hg)⟩
    · rw [List.map_map]
      conv_lhs => rw [← List.map_id s]
      refine List.map_congr_left fun x _ => ?_
      show x = x / s.sum * s.sum
      rw [div_mul_cancel₀ _ hsp.ne']
  unfold dirichlet
  suffices h : ∃ rows, samples.mapM dirichletRow = some rows ∧
      List.Forall₂ (fun s r => r.length = k ∧ r.sum = 1 ∧ (∀ x ∈ r, 0 ≤ x ∧ x ≤ 1) ∧ s = r.map fun x => x * s.sum) samples rows by
    obtain ⟨rows, h1, h2⟩ := h
    exact ⟨rows, by rw [h1]; rfl, h2⟩
  clear hlen hpos
  induction samples with
  | nil => exact ⟨[], rfl, .nil⟩
  | cons s samples ih =>
    obtain ⟨r, h1, h2⟩ := one s (by simp)
    obtain ⟨rows, h3, h4⟩ := ih (fun t ht => one t (List.mem_cons_of_mem _ ht))
    exact ⟨r :: rows, by rw [List.mapM_cons, h1, Option.bind_eq_bind, Option.bind_some, h3]; rfl, .cons h2 h4⟩

example : dirichlet 2 [[(1 : ℚ), 3], [2, 2]] = some ([2, 2], [1/4, 3/4, 1/2, 1/2]) := by decide +kernel

/-! ### multivariate_normal -/

/-- Every positive definite covariance matrix is factored, and the factor times its transpose is the matrix. -/
theorem C76_factor_partial (d : Nat) (cov : Nat → Nat → ℝ) (hcov : PosDefN d cov) :
    ∃ l, cholFactor realSqrt cov d = some l ∧ (∀ i < d, 0 < l i i) ∧ (∀ i j, i < j → l i j = 0) ∧
      ∀ i < d, ∀ j < d, ∑ k ∈ Finset.range d, l i k * l j k = cov i j := by
  obtain ⟨l, h1, h2⟩ := cholFactor_some hcov
  have hinv := cholFactor_inv d h1
  refine ⟨l, h1, h2, fun i j hij => hinv.zero i j fun hd => by have := hd.1; omega, ?_⟩
  intro i hi j hj
  rcases Nat.le_total j i with h | h
  · exact hinv.product realSqrt_sq ⟨h, .inl hi⟩ d hj
  · rw [hcov.1 i j, ← hinv.product realSqrt_sq (i' := j) (j' := i) ⟨h, .inl hj⟩ d hi]
    exact Finset.sum_congr rfl fun k _ => mul_comm _ _

/-- The covariance of the samples. `E` is any linear expectation under which the standard normal draws are uncorrelated with mean
zero and variance one; then the samples have the mean and the covariance asked for. -/
theorem C76_covariance_partial {Ω : Type} (E : (Ω → ℝ) →ₗ[ℝ] ℝ) (z : Nat → Ω → ℝ) (d : Nat) (mean : Nat → ℝ) (cov : Nat → Nat → ℝ)
    (hcov : PosDefN d cov) (h1 : E (fun _ => 1) = 1) (hz : ∀ a < d, E (z a) = 0)
    (hzz : ∀ a < d, ∀ b < d, E (fun ω => z a ω * z b ω) = if a = b then 1 else 0) :
    ∃ x : Nat → Ω → ℝ,
      (∀ ω, multivariateNormal realSqrt mean cov d [fun a => z a ω] = some ([1, d], (List.range d).map fun i => x i ω)) ∧
      (∀ i < d, E (x i) = mean i) ∧
      ∀ i < d, ∀ j < d, E (fun ω => (x i ω - mean i) * (x j ω - mean j)) = cov i j := by
  obtain ⟨l, hl, -, hzero, hprod⟩ := C76_factor_partial d cov hcov
  have hfold : ∀ (m : Nat) (i : Nat) (ω : Ω), (List.range m).foldl (fun val j => val + l i j * z j ω) (mean i) =
      mean i + ∑ k ∈ Finset.range m, l i k * z k ω := by
    intro m i ω
    induction m with
    | zero => simp
    | succ m ih => rw [List.range_succ, List.foldl_append, ih, Finset.sum_range_succ]; simp only [List.foldl_cons, List.foldl_nil]; ring
  have hx : ∀ i < d, ∀ ω, (List.range (i + 1)).foldl (fun val j => val + l i j * z j ω) (mean i) =
      mean i + ∑ k ∈ Finset.range d, l i k * z k ω := by
    intro i hi ω
    rw [hfold]
    congr 1
    refine Finset.sum_subset (fun k hk => ?_) ?_
    · rw [Finset.mem_range] at hk ⊢
      omega
    · intro k _ hk
      rw [Finset.mem_range] at hk
      rw [hzero i k (by omega), zero_mul]
  refine ⟨fun i ω => mean i + ∑ k ∈ Finset.range d, l i k * z k ω, ?_, ?_, ?_⟩
  · intro ω
    unfold multivariateNormal
    rw [hl]
    simp only [Option.map_some, List.length_cons, List.length_nil, Nat.zero_add, List.map_cons, List.map_nil,
      List.flatten_cons, List.flatten_nil, List.append_nil]
    unfold mvnSample
    congr 2
    exact List.map_congr_left fun i hi => hx i (List.mem_range.1 hi) ω
  · intro i _
    show E (fun ω => mean i + ∑ k ∈ Finset.range d, l i k * z k ω) = mean i
    have e : (fun ω => mean i + ∑ k ∈ Finset.range d, l i k * z k ω) =
        mean i • (fun _ : Ω => (1 : ℝ)) + ∑ k ∈ Finset.range d, l i k • z k := by
      funext ω
      simp [Finset.sum_apply]
    rw [e, map_add, map_smul, h1, map_sum]
    have : ∑ k ∈ Finset.range d, E (l i k • z k) = 0 := by
      refine Finset.sum_eq_zero fun k hk => ?_
      rw [map_smul, hz k (Finset.mem_range.1 hk), smul_zero]
    rw [this]
    simp
  · intro i hi j hj
    show E (fun ω => (mean i + ∑ k ∈ Finset.range d, l i k * z k ω - mean i) * (mean j + ∑ k ∈ Finset.range d, l j k * z k ω - mean j)) = _
    have e : (fun ω => (mean i + ∑ k ∈ Finset.range d, l i k * z k ω - mean i) * (mean j + ∑ k ∈ Finset.range d, l j k * z k ω - mean j)) =
        ∑ a ∈ Finset.range d, ∑ b ∈ Finset.range d, (l i a * l j b) • fun ω => z a ω * z b ω := by
      funext ω
      simp only [Finset.sum_apply, Pi.smul_apply, smul_eq_mul]
      rw [add_sub_cancel_left, add_sub_cancel_left, Finset.sum_mul_sum]
      exact Finset.sum_congr rfl fun a _ => Finset.sum_congr rfl fun b _ => by ring
    rw [e, map_sum, ← hprod i hi j hj]
    refine Finset.sum_congr rfl fun a ha => ?_
    rw [map_sum]
    have : ∀ b ∈ Finset.range d, E ((l i a * l j b) • fun ω => z a ω * z b ω) = if a = b then l i a * l j b else 0 := by
      intro b hb
      rw [map_smul, hzz a (Finset.mem_range.1 ha) b (Finset.mem_range.1 hb)]
      split <;> simp
    rw [Finset.sum_congr rfl this, Finset.sum_ite_eq, if_pos ha]

/-- An expectation as in the theorem: a fair coin with the values one and minus one. -/
example : ∃ (E : (Bool → ℝ) →ₗ[ℝ] ℝ) (z : Nat → Bool → ℝ), E (fun _ => 1) = 1 ∧ (∀ a < 1, E (z a) = 0) ∧
    ∀ a < 1, ∀ b < 1, E (fun ω => z a ω * z b ω) = if a = b then 1 else 0 := by
  refine ⟨{ toFun := fun f => (f true + f false) / 2, map_add' := fun f g => ?_, map_smul' := fun c f => ?_ },
    fun _ ω => if ω then 1 else -1, ?_, ?_, ?_⟩
  · simp only [Pi.add_apply]
    ring
  · simp only [Pi.smul_apply, smul_eq_mul, RingHom.id_apply]
    ring
  · norm_num
  · intro a _
    norm_num
  · intro a ha b hb
    have : a = b := by omega
    norm_num [this]

/-- A rational square root for examples. -/
def ratSqrt (s : ℚ) : Option ℚ := if 0 ≤ s ∧ s.num.natAbs.sqrt ^ 2 = s.num.natAbs ∧ s.den.sqrt ^ 2 = s.den then
  some (s.num.natAbs.sqrt / s.den.sqrt) else none

example : (multivariateNormal ratSqrt (fun i => if i = 0 then 10 else 20)
    (fun i j => if i = 0 ∧ j = 0 then (4 : ℚ) else if i = 1 ∧ j = 1 then 10 else 2) 2 [fun _ => 1, fun i => i]) =
    some ([2, 2], [12, 24, 10, 23]) := by decide +kernel

/-- The matrix of the example above is positive definite. -/
example : PosDefN 2 (fun i j => if i = 0 ∧ j = 0 then (4 : ℝ) else if i = 1 ∧ j = 1 then 10 else 2) := by
  refine ⟨fun i j => ?_, fun x hx => ?_⟩
  · by_cases h1 : i = 0 ∧ j = 0
    · simp [h1.1, h1.2]
    · by_cases h2 : i = 1 ∧ j = 1
      · simp [h2.1, h2.2]
      · have h3 : ¬ (j = 0 ∧ i = 0) := fun h => h1 ⟨h.2, h.1⟩
        have h4 : ¬ (j = 1 ∧ i = 1) := fun h => h2 ⟨h.2, h.1⟩
        simp only [h1, h2, h3, h4, if_false]
  · simp only [Finset.sum_range_succ, Finset.sum_range_zero]
    norm_num
    obtain ⟨i, hi, hne⟩ := hx
    have hcase : x 0 ≠ 0 ∨ x 1 ≠ 0 := by
      have : i = 0 ∨ i = 1 := by omega
      rcases this with rfl | rfl
      · exact .inl hne
      · exact .inr hne
    by_cases h1 : x 1 = 0
    · have h0 : x 0 ≠ 0 := hcase.resolve_right (fun h => h h1)
      rw [h1]
      have := mul_self_pos.2 h0
      nlinarith
    · have := mul_self_pos.2 h1
      nlinarith [sq_nonneg (2 * x 0 + x 1)]

/-- A covariance matrix that is only semi-definite is not handled: independent constants give NaN. NumPy returns the mean. -/
theorem C76_semidefinite_counterexample : (multivariateNormal ratSqrt (fun _ => 1) (fun _ _ => 0) 2 [fun _ => 1]).isNone = true := by
  decide +kernel

/-! ### Rejection sampling -/

theorem rpow_chord {s h : ℝ} (hs : 0 < s) (h0 : 0 ≤ h) (h1 : h ≤ 1) : (1 + h) ^ (-s) ≤ 1 - h * (1 - 2 ^ (-s)) := by
  have hlog : h * Real.log 2 ≤ Real.log (1 + h) := by
    have := strictConcaveOn_log_Ioi.concaveOn.2 (show (1 : ℝ) ∈ Set.Ioi 0 by simp) (show (2 : ℝ) ∈ Set.Ioi 0 by simp)
      (show 0 ≤ 1 - h by linarith) h0 (by ring)
    simp only [smul_eq_mul, Real.log_one, mul_zero, zero_add, mul_one] at this
    have e : 1 - h + h * 2 = 1 + h := by ring
    rwa [e] at this
  have hexp : Real.exp (h * (-s * Real.log 2)) ≤ 1 - h + h * Real.exp (-s * Real.log 2) := by
    have := convexOn_exp.2 (Set.mem_univ 0) (Set.mem_univ (-s * Real.log 2)) (show 0 ≤ 1 - h by linarith) h0 (by ring)
    simp only [smul_eq_mul, mul_zero, zero_add, Real.exp_zero, mul_one] at this
    exact this
  rw [Real.rpow_def_of_pos (by linarith), Real.rpow_def_of_pos (by norm_num), mul_comm (Real.log 2)]
  have : Real.exp (Real.log (1 + h) * -s) ≤ Real.exp (h * (-s * Real.log 2)) := by
    rw [Real.exp_le_exp]
    nlinarith
  linarith

/-- The law of a round of `zipf`: it returns `k` exactly for the first draws in an interval and the second draws up to a bound;
the area of these draws is proportional to `k ^ (-a)`, with the same factor for every `k ≥ 1`. -/
theorem C76_zipf_law (a : ℝ) (ha : 1 < a) (k : ℕ) (hk : 1 ≤ k) :
    ∃ lo hi acc : ℝ, 0 < lo ∧ lo < hi ∧ hi ≤ 1 ∧ 0 < acc ∧ acc ≤ 1 ∧
      (∀ u v : ℝ, 0 < u → u ≤ 1 → (zipfRound a u v = some (k : ℤ) ↔ (lo < u ∧ u ≤ hi) ∧ v ≤ acc)) ∧
      (hi - lo) * acc = (1 - 2 ^ (1 - a)) * (k : ℝ) ^ (-a) := by
  obtain ⟨s, rfl⟩ : ∃ s, a = s + 1 := ⟨a - 1, by ring⟩
  have hs : 0 < s := by linarith
  have hk0 : (0 : ℝ) < k := by exact_mod_cast hk
  have hk1 : (1 : ℝ) ≤ k := by exact_mod_cast hk
  have hb1 : (1 : ℝ) < 2 ^ s := Real.one_lt_rpow (by norm_num) hs
  have ht1 : 1 < (1 + 1 / (k : ℝ)) ^ s := Real.one_lt_rpow (by have := one_div_pos.2 hk0; linarith) hs
  have hkinv : (k : ℝ) ^ (-s) = ((k : ℝ) ^ s)⁻¹ := Real.rpow_neg hk0.le s
  have hksucc : ((k : ℝ) + 1) ^ (-s) = (k : ℝ) ^ (-s) / (1 + 1 / (k : ℝ)) ^ s := by
    have e : (k : ℝ) + 1 = k * (1 + 1 / k) := by field_simp
    rw [e, Real.mul_rpow hk0.le (by positivity), Real.rpow_neg (by positivity : (0 : ℝ) ≤ 1 + 1 / k)]
    rfl
  have hkpow : (0 : ℝ) < (k : ℝ) ^ (-s) := Real.rpow_pos_of_pos hk0 _
  have hksle : (k : ℝ) ^ (-s) ≤ 1 := Real.rpow_le_one_of_one_le_of_nonpos hk1 (by linarith)
  have hchord := rpow_chord hs (one_div_pos.2 hk0).le ((div_le_one hk0).2 hk1)
  rw [Real.rpow_neg (by positivity : (0 : ℝ) ≤ 1 + 1 / k), Real.rpow_neg (by norm_num : (0 : ℝ) ≤ 2)] at hchord
  have hka : (k : ℝ) ^ (-(s + 1)) = (k : ℝ) ^ (-s) / k := by
    rw [show -(s + 1) = -s - 1 by ring, Real.rpow_sub_one hk0.ne']
  have h2a : (2 : ℝ) ^ (1 - (s + 1)) = (2 ^ s)⁻¹ := by
    rw [show 1 - (s + 1) = -s by ring, Real.rpow_neg (by norm_num)]
  have hfloor : ∀ u : ℝ, 0 < u → (⌊u ^ (-1 / s)⌋ = (k : ℤ) ↔ ((k : ℝ) + 1) ^ (-s) < u ∧ u ≤ (k : ℝ) ^ (-s)) := by
    intro u hu
    have hup : 0 < u ^ (-1 / s) := Real.rpow_pos_of_pos hu _
    have hback : (u ^ (-1 / s)) ^ (-s) = u := by
      rw [← Real.rpow_mul hu.le]
      have : -1 / s * -s = 1 := by field_simp
      rw [this, Real.rpow_one]
    rw [Int.floor_eq_iff]
    push_cast
    rw [and_comm]
    refine and_congr ?_ ?_
    · rw [← Real.rpow_lt_rpow_iff_of_neg (by positivity : (0 : ℝ) < k + 1) hup (by linarith : -s < 0), hback]
    · rw [← Real.rpow_le_rpow_iff_of_neg hup hk0 (by linarith : -s < 0), hback]
  have hround : ∀ u v : ℝ, zipfRound (s + 1) u v = some (k : ℤ) ↔ ⌊u ^ (-1 / s)⌋ = (k : ℤ) ∧
      v * k * ((1 + 1 / (k : ℝ)) ^ s - 1) / (2 ^ s - 1) ≤ (1 + 1 / (k : ℝ)) ^ s / 2 ^ s := by
    intro u v
    unfold zipfRound
    dsimp only
    rw [add_sub_cancel_right]
    constructor
    · intro h
      split at h
      · rename_i hc
        have hx := Option.some.inj h
        rw [hx] at hc
        push_cast at hc
        exact ⟨hx, hc⟩
      · cases h
    · rintro ⟨hx, hc⟩
      rw [hx]
      push_cast
      rw [if_pos hc]
  generalize (1 + 1 / (k : ℝ)) ^ s = t at *
  generalize (2 : ℝ) ^ s = b at *
  have hmul : 1 - b⁻¹ ≤ k * (1 - t⁻¹) := by
    have : 1 / (k : ℝ) * (1 - b⁻¹) ≤ 1 - t⁻¹ := by linarith
    rw [div_mul_eq_mul_div, one_mul, div_le_iff₀ hk0] at this
    linarith
  have htp : 0 < t := by linarith
  have hbp : 0 < b := by linarith
  have hden : 0 < b * k * (t - 1) := mul_pos (mul_pos hbp hk0) (by linarith)
  refine ⟨((k : ℝ) + 1) ^ (-s), (k : ℝ) ^ (-s), t * (b - 1) / (b * k * (t - 1)), Real.rpow_pos_of_pos (by positivity) _, ?_, hksle,
    div_pos (mul_pos htp (by linarith)) hden, ?_, ?_, ?_⟩
  · rw [hksucc, div_lt_iff₀ htp]
    nlinarith
  · rw [div_le_one hden]
    have e1 : t * (b - 1) = t * b * (1 - b⁻¹) := by field_simp
    have e2 : b * k * (t - 1) = t * b * (k * (1 - t⁻¹)) := by field_simp
    rw [e1, e2]
    exact mul_le_mul_of_nonneg_left hmul (mul_pos htp hbp).le
  · intro u v hu hu1
    rw [hround, hfloor u hu]
    refine and_congr Iff.rfl ?_
    rw [div_le_div_iff₀ (by linarith) hbp, le_div_iff₀ hden]
    constructor <;> intro h <;> linarith
  · rw [hksucc, hka, h2a]
    have h3 : t - 1 ≠ 0 := by linarith
    field_simp

/-- A draw of one gives one. -/
example : zipfRound 2 1 0 = some 1 := by norm_num [zipfRound]

/-- What `zipf` returns is at least one. -/
theorem C76_zipf_support (a : ℝ) (ha : 1 < a) (draws : List (ℝ × ℝ)) (hd : ∀ d ∈ draws, 0 ≤ d.1 ∧ d.1 < 1) (x : ℤ)
    (h : zipfLoop a draws = some x) : 1 ≤ x := by
  induction draws with
  | nil => cases h
  | cons d draws ih =>
    rw [zipfLoop] at h
    split at h
    · rename_i y hy
      have := Option.some.inj h
      subst this
      unfold zipfRound at hy
      dsimp only at hy
      split at hy
      · rw [← Option.some.inj hy, Int.le_floor]
        obtain ⟨h0, h1⟩ := hd d (by simp)
        push_cast
        exact Real.one_le_rpow_of_pos_of_le_one_of_nonpos (by linarith) (by linarith)
          (div_nonpos_of_nonpos_of_nonneg (by norm_num) (by linarith))
      · cases hy
    · exact ih (fun e he => hd e (List.mem_cons_of_mem _ he)) h

/-- The cosine of the angle proposed. -/
theorem vonmisesW_some {kappa : ℝ} (hk : 0 < kappa) (u1 : ℝ) : ∃ w, vonmisesW kappa u1 = some w ∧ -1 ≤ w ∧ w ≤ 1 ∧
    w = (1 + vonmisesR kappa * Real.cos (Real.pi * u1)) / (vonmisesR kappa + Real.cos (Real.pi * u1)) := by
  have hr := vonmisesR_gt hk
  have h1 := Real.neg_one_le_cos (Real.pi * u1)
  have h2 := Real.cos_le_one (Real.pi * u1)
  unfold vonmisesW
  dsimp only
  generalize vonmisesR kappa = r at *
  generalize Real.cos (Real.pi * u1) = z at *
  have hp : 0 < r + z := by linarith
  rw [if_neg hp.ne']
  refine ⟨_, rfl, ?_, ?_, rfl⟩
  · rw [le_div_iff₀ hp]
    nlinarith
  · rw [div_le_one hp]
    nlinarith

/-- A round accepts exactly when the second draw is below `c (2 - c)`: the second test of the code never accepts more. -/
theorem C76_vonmises_accepts (kappa w u2 : ℝ) (hu : 0 ≤ u2) :
    vonmisesAccepts kappa w u2 ↔ u2 < kappa * (vonmisesR kappa - w) * (2 - kappa * (vonmisesR kappa - w)) := by
  unfold vonmisesAccepts
  dsimp only
  generalize kappa * (vonmisesR kappa - w) = c
  constructor
  · rintro (h | ⟨hc, h⟩)
    · linarith
    · have h1 := Real.log_le_sub_one_of_pos hc
      have h2 : c = 1 := by
        by_contra hne
        have := Real.log_lt_sub_one_of_pos hc hne
        linarith
      subst h2
      have : u2 ≤ 0 := by linarith
      linarith
  · intro h
    exact .inl (by linarith)

/-- The value of `vonmises` is a number, at most half a turn from `mu`. -/
theorem C76_vonmises_partial (mu kappa u : ℝ) (draws : List (ℝ × ℝ × ℝ)) (hk : 1 / 1000000 ≤ kappa) (y : Option ℝ)
    (h : vonmises mu kappa u draws = some y) : ∃ x, y = some x ∧ mu - Real.pi ≤ x ∧ x ≤ mu + Real.pi := by
  have hk0 : 0 < kappa := lt_of_lt_of_le (by norm_num) hk
  unfold vonmises at h
  rw [if_neg (by linarith)] at h
  induction draws with
  | nil => cases h
  | cons d draws ih =>
    rw [vonmisesLoop] at h
    split at h
    · rename_i z hz
      have e := Option.some.inj h
      subst e
      obtain ⟨w, hw, w1, w2, -⟩ := vonmisesW_some hk0 d.1
      unfold vonmisesRound at hz
      rw [hw] at hz
      dsimp only at hz
      split at hz
      · rw [acos?_of w1 w2, Option.map_some] at hz
        have a0 := Real.arccos_nonneg w
        have a1 := Real.arccos_le_pi w
        refine ⟨_, (Option.some.inj hz).symm, ?_⟩
        split <;> constructor <;> linarith
      · cases hz
    · exact ih h

/-- The angle of a round that accepts: its cosine from `mu` is the proposed one, and the third draw chooses the side. -/
theorem C76_vonmises_round (mu kappa u1 u2 u3 x : ℝ) (hk : 0 < kappa)
    (h : vonmisesRound mu kappa u1 u2 u3 = some (some x)) :
    vonmisesW kappa u1 = some (Real.cos (x - mu)) ∧ (1 / 2 < u3 → mu ≤ x ∧ x ≤ mu + Real.pi) ∧
      (u3 ≤ 1 / 2 → mu - Real.pi ≤ x ∧ x ≤ mu) := by
  obtain ⟨w, hw, w1, w2, -⟩ := vonmisesW_some hk u1
  unfold vonmisesRound at h
  rw [hw] at h
  dsimp only at h
  split at h
  · rw [acos?_of w1 w2, Option.map_some] at h
    have a0 := Real.arccos_nonneg w
    have a1 := Real.arccos_le_pi w
    have hc := Real.cos_arccos w1 w2
    have e := Option.some.inj (Option.some.inj h)
    rw [hw]
    split at e
    · rename_i h3
      have e' : x - mu = Real.arccos w := by linarith
      refine ⟨by rw [e', hc], fun _ => ⟨by linarith, by linarith⟩, fun h4 => absurd h4 (not_le.2 h3)⟩
    · rename_i h3
      have e' : x - mu = -Real.arccos w := by linarith
      refine ⟨by rw [e', Real.cos_neg, hc], fun h4 => absurd h4 h3, fun _ => ⟨by linarith, by linarith⟩⟩
  · cases h

/-- The angles with a cosine up to `r - 2 / kappa` are never returned: with `kappa` of two or more, nothing that is a quarter turn
or more away from `mu`. The density is positive at all angles. -/
theorem C76_vonmises_support (mu kappa u : ℝ) (draws : List (ℝ × ℝ × ℝ)) (hk : 2 ≤ kappa) (hd : ∀ d ∈ draws, 0 ≤ d.2.1) (x : ℝ)
    (h : vonmises mu kappa u draws = some (some x)) : mu - Real.pi / 2 < x ∧ x < mu + Real.pi / 2 := by
  have hk0 : 0 < kappa := by linarith
  unfold vonmises at h
  rw [if_neg (by linarith)] at h
  induction draws with
  | nil => cases h
  | cons d draws ih =>
    rw [vonmisesLoop] at h
    split at h
    · rename_i z hz
      have e := Option.some.inj h
      subst e
      obtain ⟨w, hw, w1, w2, -⟩ := vonmisesW_some hk0 d.1
      have hr := vonmisesR_gt hk0
      unfold vonmisesRound at hz
      rw [hw] at hz
      dsimp only at hz
      split at hz
      · rename_i hacc
        have hu := hd d (by simp)
        rw [C76_vonmises_accepts _ _ _ hu] at hacc
        have hc : 0 < kappa * (vonmisesR kappa - w) := mul_pos hk0 (by linarith)
        have hc2 : kappa * (vonmisesR kappa - w) < 2 := by
          by_contra hge
          nlinarith
        have hw0 : 0 < w := by nlinarith
        rw [acos?_of w1 w2, Option.map_some] at hz
        have a0 := Real.arccos_nonneg w
        have a1 := Real.arccos_lt_pi_div_two.2 hw0
        have e := Option.some.inj (Option.some.inj hz)
        rw [← e]
        split <;> constructor <;> linarith
      · cases hz
    · exact ih (fun e he => hd e (List.mem_cons_of_mem _ he)) h

/-- With `kappa` two there are draws that are accepted. -/
example : ∃ x, vonmises 0 2 0 [(0, 0, 3 / 4)] = some (some x) := by
  have hk : (0 : ℝ) < 2 := by norm_num
  obtain ⟨w, hw, w1, w2, hweq⟩ := vonmisesW_some hk 0
  have hr := vonmisesR_gt hk
  have hone : w = 1 := by
    rw [hweq, mul_zero, Real.cos_zero, mul_one, div_eq_one_iff_eq (by linarith), add_comm]
  subst hone
  have hacc : vonmisesAccepts 2 1 0 := by
    rw [C76_vonmises_accepts _ _ _ (le_refl _)]
    exact mul_pos (by linarith) (by have := vonmisesR_lt hk; linarith)
  refine ⟨0 + 1 * Real.arccos 1, ?_⟩
  unfold vonmises
  rw [if_neg (by norm_num), vonmisesLoop]
  unfold vonmisesRound
  rw [hw]
  dsimp only
  rw [if_pos hacc, acos?_of w1 w2, if_pos (by norm_num), Option.map_some]

/-- The law of a rejection sampler is the target when the share of draws accepted is proportional to the quotient of the target and
the proposal density. For `vonmises` it is not: there is no factor for which the bound of `C76_vonmises_accepts` (or zero, if that
is negative) times the density of the proposal is the von Mises density. -/
theorem C76_vonmises_law_counterexample (kappa : ℝ) (hk : 2 ≤ kappa) :
    ¬ ∃ m : ℝ, ∀ w, -1 ≤ w → w ≤ 1 →
      max 0 (kappa * (vonmisesR kappa - w) * (2 - kappa * (vonmisesR kappa - w))) * wrappedCauchyDensity (vonmisesR kappa) w =
        m * vonMisesDensity kappa w := by
  rintro ⟨m, hm⟩
  have hk0 : 0 < kappa := by linarith
  have hr := vonmisesR_gt hk0
  have h1 := hm (-1) (le_refl _) (by norm_num)
  have hneg : kappa * (vonmisesR kappa - -1) * (2 - kappa * (vonmisesR kappa - -1)) ≤ 0 := by
    refine mul_nonpos_of_nonneg_of_nonpos (by nlinarith) ?_
    nlinarith
  rw [max_eq_left hneg, zero_mul] at h1
  have hm0 : m = 0 := (mul_eq_zero.1 h1.symm).resolve_right (Real.exp_pos _).ne'
  have hlt := vonmisesR_lt hk0
  have h2 := hm 1 (by norm_num) (le_refl _)
  rw [hm0, zero_mul] at h2
  have hc : 0 < kappa * (vonmisesR kappa - 1) := mul_pos hk0 (by linarith)
  have hpos : 0 < kappa * (vonmisesR kappa - 1) * (2 - kappa * (vonmisesR kappa - 1)) := mul_pos hc (by linarith)
  rw [max_eq_right hpos.le] at h2
  have : 0 < wrappedCauchyDensity (vonmisesR kappa) 1 := one_div_pos.2 (by linarith)
  exact absurd h2 (mul_pos hpos this).ne'

/-- The test of Best and Fisher, with the logarithm of the second draw, has the right law, and the first test of the code is a
shortcut for it. -/
theorem C76_vonmises_best_fisher (kappa : ℝ) (hk : 0 < kappa) :
    (∃ m : ℝ, 0 < m ∧ ∀ w, -1 ≤ w → w ≤ 1 →
      (∀ u2 : ℝ, 0 < u2 → (0 ≤ Real.log (kappa * (vonmisesR kappa - w) / u2) + 1 - kappa * (vonmisesR kappa - w) ↔
        u2 ≤ kappa * (vonmisesR kappa - w) * Real.exp (1 - kappa * (vonmisesR kappa - w)))) ∧
      kappa * (vonmisesR kappa - w) * Real.exp (1 - kappa * (vonmisesR kappa - w)) * wrappedCauchyDensity (vonmisesR kappa) w =
        m * vonMisesDensity kappa w) ∧
    ∀ w u2 : ℝ, w ≤ 1 → 0 ≤ u2 → vonmisesAccepts kappa w u2 →
      u2 ≤ kappa * (vonmisesR kappa - w) * Real.exp (1 - kappa * (vonmisesR kappa - w)) := by
  have hr := vonmisesR_gt hk
  constructor
  · refine ⟨kappa * Real.exp (1 - kappa * vonmisesR kappa), by positivity, fun w _ h1 => ⟨fun u2 hu => ?_, ?_⟩⟩
    · have hc : 0 < kappa * (vonmisesR kappa - w) := mul_pos hk (by linarith)
      generalize kappa * (vonmisesR kappa - w) = c at *
      rw [Real.log_div hc.ne' hu.ne']
      rw [← Real.log_le_log_iff hu (by positivity), Real.log_mul hc.ne' (Real.exp_pos _).ne', Real.log_exp]
      constructor <;> intro h <;> linarith
    · unfold wrappedCauchyDensity vonMisesDensity
      have e : (1 : ℝ) - kappa * (vonmisesR kappa - w) = (1 - kappa * vonmisesR kappa) + kappa * w := by ring
      rw [e, Real.exp_add]
      have : vonmisesR kappa - w ≠ 0 := by linarith
      field_simp
  · intro w u2 h1 hu hacc
    rw [C76_vonmises_accepts _ _ _ hu] at hacc
    have hc : 0 < kappa * (vonmisesR kappa - w) := mul_pos hk (by linarith)
    generalize kappa * (vonmisesR kappa - w) = c at *
    have := Real.add_one_le_exp (1 - c)
    nlinarith

/-- The angle is not brought back to `[-π, π]` as NumPy does. -/
theorem C76_vonmises_wrap_counterexample : ∃ mu kappa u : ℝ, ∃ draws x, -Real.pi ≤ mu ∧ mu ≤ Real.pi ∧ 0 < kappa ∧
    (∀ d ∈ draws, (0 ≤ d.1 ∧ d.1 < 1) ∧ (0 ≤ d.2.1 ∧ d.2.1 < 1) ∧ (0 ≤ d.2.2 ∧ d.2.2 < 1)) ∧
    vonmises mu kappa u draws = some (some x) ∧ Real.pi < x := by
  have hp := Real.pi_pos
  have hr := vonmisesR_gt (kappa := 1) one_pos
  have hr2 : vonmisesR 1 * (vonmisesR 1 - 1) = 1 := by
    have h := vonmisesR_eq (kappa := 1) one_pos
    have hS : Real.sqrt (1 + 4 * 1 * 1) ^ 2 = 1 + 4 * 1 * 1 := Real.sq_sqrt (by norm_num)
    generalize Real.sqrt (1 + 4 * 1 * 1) = S at *
    rw [one_mul] at h
    rw [h]
    linarith
  have hinv : 1 / vonmisesR 1 = vonmisesR 1 - 1 := by
    rw [div_eq_iff (by linarith)]
    linarith
  have hlt : vonmisesR 1 - 1 < 1 := by nlinarith
  refine ⟨Real.pi, 1, 0, [(1 / 2, 0, 3 / 4)], Real.pi + 1 * Real.arccos (vonmisesR 1 - 1), by linarith, le_refl _, one_pos,
    by norm_num, ?_, ?_⟩
  · have hw : vonmisesW 1 (1 / 2) = some (vonmisesR 1 - 1) := by
      unfold vonmisesW
      dsimp only
      rw [mul_one_div, Real.cos_pi_div_two, mul_zero, add_zero, add_zero, hinv, if_neg (by linarith)]
    have hacc : vonmisesAccepts 1 (vonmisesR 1 - 1) 0 := .inl (by norm_num)
    unfold vonmises
    rw [if_neg (by norm_num), vonmisesLoop]
    unfold vonmisesRound
    rw [hw]
    dsimp only
    rw [if_pos hacc, acos?_of (by linarith) hlt.le, if_pos (by norm_num), Option.map_some]
  · have := Real.arccos_pos.2 hlt
    linarith

/-! ### choice with replacement -/

/-- `choice` with replacement returns as many elements as asked for, all from the population; each is taken at an unbiased
position. -/
theorem C76_choice {α : Type} (values : List α) (h0 : 0 < values.length) (h : values.length < 2 ^ 64) :
    ∃ pick : BitVec 64 → Option Nat, Spec.Unbiased pick values.length ∧
      ∀ (σ : Type) (next : σ → BitVec 64 × σ) (fuel total : Nat) (g g' : σ) (xs : List α),
        choiceReplace next fuel values total g = some (xs, g') →
          ∃ is : List Nat, is.length = total ∧ (∀ i ∈ is, i < values.length) ∧ is.map (fun i => values[i]?) = xs.map some ∧
            rowsOf (fun g => Spec.firstAccepted pick next (fuel + 1) g) total g = some (is, g') := by
  obtain ⟨pick, hu, hp⟩ := C37_unbiased values.length h0 h
  refine ⟨pick, hu, fun σ next fuel total g g' xs hx => ?_⟩
  unfold choiceReplace at hx
  rw [if_neg (by omega)] at hx
  simp only [hp] at hx
  induction total generalizing g xs with
  | zero =>
    cases hx
    exact ⟨[], rfl, by simp, rfl, rfl⟩
  | succ k ih =>
    have hx : ((Spec.firstAccepted pick next (fuel + 1) g).bind fun r => values[r.1]?.map fun x => (x, r.2)).bind (fun a =>
        (rowsOf (fun g => (Spec.firstAccepted pick next (fuel + 1) g).bind fun r => values[r.1]?.map fun x => (x, r.2)) k a.2).bind
          fun b => some (a.1 :: b.1, b.2)) = some (xs, g') := hx
    rw [Option.bind_eq_some_iff] at hx
    obtain ⟨a, ha, hx⟩ := hx
    rw [Option.bind_eq_some_iff] at hx ha
    obtain ⟨b, hb, hx⟩ := hx
    obtain ⟨r, hr, ha⟩ := ha
    obtain ⟨x, hv, rfl⟩ := Option.map_eq_some_iff.1 ha
    cases hx
    obtain ⟨is, i1, i2, i3, i4⟩ := ih r.2 b.1 hb
    refine ⟨r.1 :: is, by simp [i1], ?_, by simp [hv, i3], ?_⟩
    · intro i hi
      rcases List.mem_cons.1 hi with rfl | hi
      · exact (List.getElem?_eq_some_iff.1 hv).1
      · exact i2 i hi
    · show (Spec.firstAccepted pick next (fuel + 1) g).bind (fun a =>
        (rowsOf (fun g => Spec.firstAccepted pick next (fuel + 1) g) k a.2).bind fun b => some (a.1 :: b.1, b.2)) = _
      rw [hr, Option.bind_some, i4]
      rfl

example : (choiceReplace (fun g : Nat => (BitVec.ofNat 64 (g * 2 ^ 62), g + 1)) 3 ['a', 'b', 'c'] 4 1).map Prod.fst =
    some ['a', 'b', 'c', 'a'] := by decide +kernel

end Props
