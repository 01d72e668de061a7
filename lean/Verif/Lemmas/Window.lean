import Verif.Model.Window
import Mathlib.Analysis.SpecificLimits.Normed
import Mathlib.Analysis.SpecialFunctions.Exponential
import Mathlib.Tactic.Linarith
import Mathlib.Tactic.LinearCombination
import Mathlib.Tactic.FieldSimp
import Mathlib.Tactic.Positivity
/-!
# Lemmas: windows and the Bessel function
-/

namespace Rumpy
open Spec Real

/-! ## Bounds of polynomials on the unit interval -/

/-- The polynomial with the coefficients `c`, the constant one first. -/
noncomputable def polyEval : List ℚ → ℝ → ℝ
  | [], _ => 0
  | c :: cs, t => c + t * polyEval cs t

def polyAdd : List ℚ → List ℚ → List ℚ
  | [], b => b
  | a, [] => a
  | x :: a, y :: b => (x + y) :: polyAdd a b

/-- The polynomial in `t` that `c` is at `a + h * t`. -/
def polyShift (a h : ℚ) : List ℚ → List ℚ
  | [] => []
  | c :: cs => polyAdd (c :: (polyShift a h cs).map (h * ·)) ((polyShift a h cs).map (a * ·))

def ratAbs (q : ℚ) : ℚ := if 0 ≤ q then q else -q

def ratMax (p q : ℚ) : ℚ := if p ≤ q then q else p

def polySum : List ℚ → ℚ
  | [] => 0
  | c :: cs => ratAbs c + polySum cs

/-- A bound of the polynomial on the unit interval. -/
def polyBound : List ℚ → ℚ
  | [] => 0
  | [c] => ratAbs c
  | c :: d :: cs => ratMax (ratAbs c) (ratAbs (c + d)) + polySum cs

theorem polyEval_add (a b : List ℚ) (t : ℝ) : polyEval (polyAdd a b) t = polyEval a t + polyEval b t := by
  induction a generalizing b with
  | nil => simp [polyAdd, polyEval]
  | cons x a ih =>
    cases b with
    | nil => simp [polyAdd, polyEval]
    | cons y b => simp only [polyAdd, polyEval, ih]; push_cast; ring

theorem polyEval_scale (h : ℚ) (a : List ℚ) (t : ℝ) : polyEval (a.map (h * ·)) t = h * polyEval a t := by
  induction a with
  | nil => simp [polyEval]
  | cons x a ih => simp only [List.map_cons, polyEval, ih]; push_cast; ring

theorem polyEval_shift (a h : ℚ) (c : List ℚ) (t : ℝ) : polyEval (polyShift a h c) t = polyEval c (a + h * t) := by
  induction c with
  | nil => simp [polyShift, polyEval]
  | cons x c ih =>
    simp only [polyShift, polyEval_add, polyEval, polyEval_scale, ih]; ring

theorem ratAbs_cast (q : ℚ) : ((ratAbs q : ℚ) : ℝ) = |(q : ℝ)| := by
  unfold ratAbs
  split
  · next h => rw [abs_of_nonneg]; exact_mod_cast h
  · next h => rw [abs_of_neg]; push_cast; rfl; exact_mod_cast not_le.mp h

theorem polySum_bound (c : List ℚ) {t : ℝ} (h0 : 0 ≤ t) (h1 : t ≤ 1) : |polyEval c t| ≤ polySum c := by
  induction c with
  | nil => simp [polyEval, polySum]
  | cons x c ih =>
    simp only [polyEval, polySum]
    push_cast
    rw [ratAbs_cast]
    refine (abs_add_le _ _).trans ?_
    rw [abs_mul, abs_of_nonneg h0]
    nlinarith [abs_nonneg (polyEval c t)]

theorem polyBound_bound (c : List ℚ) {t : ℝ} (h0 : 0 ≤ t) (h1 : t ≤ 1) : |polyEval c t| ≤ polyBound c := by
  match c with
  | [] => simp [polyEval, polyBound]
  | [x] => simp [polyEval, polyBound, ratAbs_cast]
  | x :: y :: c =>
    simp only [polyEval, polyBound]
    have hs := polySum_bound c h0 h1
    have hm1 : |(x : ℝ)| ≤ (ratMax (ratAbs x) (ratAbs (x + y)) : ℚ) := by
      rw [← ratAbs_cast]
      have : ratAbs x ≤ ratMax (ratAbs x) (ratAbs (x + y)) := by unfold ratMax; split <;> simp_all
      exact_mod_cast this
    have hm2 : |(x : ℝ) + y| ≤ (ratMax (ratAbs x) (ratAbs (x + y)) : ℚ) := by
      have h := ratAbs_cast (x + y)
      push_cast at h
      rw [← h]
      have : ratAbs (x + y) ≤ ratMax (ratAbs x) (ratAbs (x + y)) := by
        unfold ratMax
        split
        · exact le_refl _
        · next h => exact (not_le.mp h).le
      exact_mod_cast this
    push_cast
    have e : (x : ℝ) + t * (y + t * polyEval c t) = (1 - t) * x + t * (x + y) + t * t * polyEval c t := by ring
    rw [e]
    refine (abs_add_le _ _).trans ?_
    refine add_le_add ((abs_add_le _ _).trans ?_) ?_
    · rw [abs_mul, abs_mul, abs_of_nonneg h0, abs_of_nonneg (by linarith : (0 : ℝ) ≤ 1 - t)]
      nlinarith
    · rw [abs_mul, abs_of_nonneg (mul_nonneg h0 h0)]
      have : t * t ≤ 1 := by nlinarith
      nlinarith [abs_nonneg (polyEval c t), mul_nonneg h0 h0]

/-! ## The Bessel function -/

theorem besselTerm (x : ℝ) (k : ℕ) : ((x / 2) ^ k / k.factorial) ^ 2 = ((x / 2) ^ 2) ^ k / (k.factorial : ℝ) ^ 2 := by
  rw [div_pow, ← pow_mul, ← pow_mul, Nat.mul_comm]

theorem besselTerm_nonneg (x : ℝ) (k : ℕ) : 0 ≤ ((x / 2) ^ k / k.factorial : ℝ) ^ 2 := sq_nonneg _

theorem bessel_summable (x : ℝ) : Summable fun k : ℕ => ((x / 2) ^ k / k.factorial : ℝ) ^ 2 := by
  refine Summable.of_nonneg_of_le (besselTerm_nonneg x) (fun k => ?_) (Real.summable_pow_div_factorial ((x / 2) ^ 2))
  rw [besselTerm]
  have h1 : (1 : ℝ) ≤ k.factorial := by exact_mod_cast Nat.one_le_iff_ne_zero.mpr (Nat.factorial_ne_zero k)
  apply div_le_div_of_nonneg_left (by positivity) (by linarith)
  nlinarith

theorem bessel_ge_one (x : ℝ) : 1 ≤ besselI0 x := by
  have h := (bessel_summable x).sum_le_tsum (Finset.range 1) (fun k _ => besselTerm_nonneg x k)
  unfold besselI0
  simpa using h

theorem bessel_zero : besselI0 0 = 1 := by
  unfold besselI0
  rw [tsum_eq_single 0]
  · simp
  · intro k hk
    simp [hk]

theorem bessel_mono {x y : ℝ} (h : |x| ≤ |y|) : besselI0 x ≤ besselI0 y := by
  refine (bessel_summable x).tsum_le_tsum (fun k => ?_) (bessel_summable y)
  rw [besselTerm, besselTerm]
  have h2 : (x / 2) ^ 2 ≤ (y / 2) ^ 2 := by
    rw [div_pow, div_pow]
    have := sq_le_sq.mpr h
    linarith
  have : ((x / 2) ^ 2) ^ k ≤ ((y / 2) ^ 2) ^ k := pow_le_pow_left₀ (sq_nonneg _) h2 k
  gcongr

theorem bessel_even (x : ℝ) : besselI0 (-x) = besselI0 x := le_antisymm (bessel_mono (by simp)) (bessel_mono (by simp))

theorem bessel_tail_term {y : ℝ} (h0 : 0 ≤ y) (h1 : y ≤ 1) (j : ℕ) :
    (225 / 64 * y) ^ (j + 14) / ((j + 14).factorial : ℝ) ^ 2 ≤ 1 / 10 ^ 14 * (1 / 2) ^ j := by
  induction j with
  | zero =>
    have : (225 / 64 * y) ^ 14 ≤ (225 / 64) ^ 14 := pow_le_pow_left₀ (by positivity) (by linarith) 14
    have hf : ((0 + 14).factorial : ℝ) = 87178291200 := by norm_num [Nat.factorial]
    rw [hf, Nat.zero_add]
    refine (div_le_div_of_nonneg_right this (by positivity)).trans ?_
    norm_num
  | succ j ih =>
    have e : (225 / 64 * y) ^ (j + 1 + 14) / ((j + 1 + 14).factorial : ℝ) ^ 2
        = (225 / 64 * y) ^ (j + 14) / ((j + 14).factorial : ℝ) ^ 2 * (225 / 64 * y / ((j : ℝ) + 15) ^ 2) := by
      have : j + 1 + 14 = (j + 14) + 1 := by omega
      rw [this, pow_succ, Nat.factorial_succ]
      push_cast
      have h : ((j + 14).factorial : ℝ) ≠ 0 := by exact_mod_cast Nat.factorial_ne_zero _
      have h' : (j : ℝ) + 14 + 1 ≠ 0 := by positivity
      have h'' : (j : ℝ) + 15 ≠ 0 := by positivity
      field_simp
      ring
    rw [e, pow_succ (1 / 2 : ℝ) j, ← mul_assoc]
    refine mul_le_mul ih ?_ (by positivity) (by positivity)
    rw [div_le_iff₀ (by positivity)]
    have : (0 : ℝ) ≤ j := by positivity
    nlinarith

/-- The first terms of the power series, in terms of `(x / 3.75) ^ 2`. -/
def besselCoeffs : List ℚ := (List.range 14).map fun k => (225 / 64) ^ k / (k.factorial : ℚ) ^ 2

def polyCoeffs : List ℚ :=
  [1, 35156229 / 10 ^ 7, 30899424 / 10 ^ 7, 12067492 / 10 ^ 7, 2659732 / 10 ^ 7, 360768 / 10 ^ 7, 45813 / 10 ^ 7]

theorem besselPoly_eval (y : ℝ) : besselPoly y = polyEval polyCoeffs y := by
  simp only [besselPoly, polyCoeffs, polyEval]
  push_cast
  ring

theorem polyEval_range (f : ℕ → ℚ) (n : ℕ) (t : ℝ) :
    polyEval ((List.range n).map f) t = ∑ k ∈ Finset.range n, (f k : ℝ) * t ^ k := by
  induction n generalizing f with
  | zero => simp [polyEval]
  | succ n ih =>
    rw [List.range_succ_eq_map, List.map_cons, List.map_map, polyEval, ih, Finset.sum_range_succ', Finset.mul_sum, add_comm]
    congr 1
    · refine Finset.sum_congr rfl (fun k _ => ?_)
      simp only [Function.comp, pow_succ]
      ring
    · simp

/-- The power series is its first terms and a little more. -/
theorem bessel_partial_sum {x : ℝ} (hx : |x| ≤ 15 / 4) :
    polyEval besselCoeffs ((x / 3.75) ^ 2) ≤ besselI0 x ∧
    besselI0 x ≤ polyEval besselCoeffs ((x / 3.75) ^ 2) + 1 / 10 ^ 13 := by
  set y := (x / 3.75) ^ 2 with hy
  have h0 : 0 ≤ y := sq_nonneg _
  have h1 : y ≤ 1 := by
    rw [hy, div_pow, div_le_one (by norm_num)]
    have := sq_le_sq' (by linarith [neg_abs_le x] : -(15 / 4) ≤ x) ((le_abs_self x).trans hx)
    norm_num at this ⊢
    linarith
  have hq : (x / 2) ^ 2 = 225 / 64 * y := by rw [hy]; ring
  have hsum : polyEval besselCoeffs y = ∑ k ∈ Finset.range 14, ((x / 2) ^ k / k.factorial : ℝ) ^ 2 := by
    rw [besselCoeffs, polyEval_range]
    refine Finset.sum_congr rfl (fun k _ => ?_)
    rw [besselTerm, hq, mul_pow]
    push_cast
    ring
  have hsplit := (bessel_summable x).sum_add_tsum_nat_add 14
  have htail : ∑' j : ℕ, ((x / 2) ^ (j + 14) / (j + 14).factorial : ℝ) ^ 2 ≤ 1 / 10 ^ 13 := by
    have hg : Summable fun j : ℕ => (1 / 10 ^ 14 * (1 / 2) ^ j : ℝ) :=
      (summable_geometric_of_lt_one (by norm_num) (by norm_num)).mul_left _
    refine (((summable_nat_add_iff 14).mpr (bessel_summable x)).tsum_le_tsum (fun j => ?_) hg).trans ?_
    · rw [besselTerm, hq]
      exact bessel_tail_term h0 h1 j
    · rw [tsum_mul_left, tsum_geometric_of_lt_one (by norm_num) (by norm_num)]
      norm_num
  have hpos : 0 ≤ ∑' j : ℕ, ((x / 2) ^ (j + 14) / (j + 14).factorial : ℝ) ^ 2 :=
    tsum_nonneg (fun j => besselTerm_nonneg x (j + 14))
  have hdef : besselI0 x = ∑' k : ℕ, ((x / 2) ^ k / k.factorial : ℝ) ^ 2 := rfl
  rw [hdef, ← hsplit, hsum]
  constructor <;> linarith

/-- The difference of the polynomial and the first terms. -/
def diffCoeffs : List ℚ := polyAdd polyCoeffs (besselCoeffs.map ((-1) * ·))

theorem diff_pieces : ∀ i ∈ List.range 128, polyBound (polyShift (i / 128) (1 / 128) diffCoeffs) ≤ 1599 / 10 ^ 10 := by
  decide +kernel

theorem diff_bound {y : ℝ} (h0 : 0 ≤ y) (h1 : y < 1) : |polyEval diffCoeffs y| ≤ 1599 / 10 ^ 10 := by
  obtain ⟨i, hi⟩ : ∃ i : ℕ, i = ⌊128 * y⌋₊ := ⟨_, rfl⟩
  have hle : (i : ℝ) ≤ 128 * y := hi ▸ Nat.floor_le (by positivity)
  have hlt : 128 * y < i + 1 := hi ▸ Nat.lt_floor_add_one _
  have hi128 : i < 128 := by
    have : (i : ℝ) < 128 := by linarith
    exact_mod_cast this
  have hp := diff_pieces i (List.mem_range.mpr hi128)
  have hb := polyBound_bound (polyShift (i / 128) (1 / 128) diffCoeffs) (t := 128 * y - i) (by linarith) (by linarith)
  rw [polyEval_shift] at hb
  have e : ((((i : ℚ) / 128 : ℚ) : ℝ) + ((1 / 128 : ℚ) : ℝ) * (128 * y - i)) = y := by push_cast; ring
  rw [e] at hb
  refine hb.trans ?_
  have : ((polyBound (polyShift (i / 128) (1 / 128) diffCoeffs) : ℚ) : ℝ) ≤ ((1599 / 10 ^ 10 : ℚ) : ℝ) := by exact_mod_cast hp
  refine this.trans (le_of_eq ?_)
  push_cast
  ring

theorem besselCode_accurate {x : ℝ} (hx : |x| < 3.75) : |besselI0Code x - besselI0 x| ≤ 1.6 / 10 ^ 7 := by
  have hx' : |x| ≤ 15 / 4 := by norm_num at hx ⊢; linarith
  have hp := bessel_partial_sum hx'
  have hy : (x / 3.75) ^ 2 < 1 := by
    rw [div_pow, div_lt_one (by norm_num), ← sq_abs]
    nlinarith [abs_nonneg x]
  have hd := diff_bound (sq_nonneg (x / 3.75)) hy
  rw [diffCoeffs, polyEval_add, polyEval_scale, ← besselPoly_eval] at hd
  have hcode : besselI0Code x = besselPoly ((x / 3.75) ^ 2) := by
    unfold besselI0Code
    dsimp only
    rw [if_pos hx]
  rw [hcode]
  push_cast at hd
  rw [abs_le] at hd ⊢
  constructor <;> norm_num at * <;> linarith [hp.1, hp.2, hd.1, hd.2]

end Rumpy
