import Mathlib.Tactic.Ring
import Mathlib.Tactic.Linarith
import Mathlib.Tactic.FieldSimp
import Mathlib.Data.Rat.Floor
import Verif.Spec.FloatOps
import Verif.Model.FloatOps
import Verif.Lemmas.FloatOps
import Verif.Lemmas.DoubleRound
import Verif.Props.Cast
/-!
# C93: element operations on floats
-/

namespace Props
open Spec Rumpy

/-! ### Remainder -/

/-- The exact remainder: a number of the format, smaller than the divisor, with the sign of the dividend. -/
theorem C93_fmod (p : Nat) (lo hi : Int) (neg : Bool) (x y : ℚ) (hx : IsFloat p lo hi x) (hy : IsFloat p lo hi y) (h0 : y ≠ 0) :
    ∃ r, floatKernel p lo hi neg .mod (.num x) (.num y) = .num r ∧ IsFmod x y r ∧ IsFloat p lo hi r := by
  obtain ⟨T, hT⟩ : ∃ T : Int, T = if 0 ≤ x / y then ⌊x / y⌋ else ⌈x / y⌉ := ⟨_, rfl⟩
  have hk : floatKernel p lo hi neg .mod (.num x) (.num y) = .num (x - y * (T : ℚ)) := by
    unfold floatKernel fltRem
    dsimp only
    rw [if_neg h0, ← hT]
  have ht := trunc_spec (x / y)
  rw [← hT] at ht
  obtain ⟨t1, t2, t3⟩ := ht
  have hxy : x = y * (x / y) := by field_simp
  generalize x / y = t at *
  have hr : x - y * (T : ℚ) = y * (t - T) := by rw [hxy]; ring
  have h1 : t * T ≤ |t| * |(T : ℚ)| := by rw [← abs_mul]; exact le_abs_self _
  have h2 : |t| * |(T : ℚ)| ≤ |t| * |t| := mul_le_mul_of_nonneg_left t1 (abs_nonneg _)
  rw [abs_mul_abs_self] at h2
  have htT : 0 ≤ t * (t - T) := by linarith [mul_sub t t (T : ℚ)]
  have hle : |t - T| ≤ |t| := by
    rw [← sq_le_sq]
    have h4 : |(T : ℚ)| * |(T : ℚ)| ≤ |t| * |(T : ℚ)| := mul_le_mul_of_nonneg_right t1 (abs_nonneg _)
    rw [abs_mul_abs_self, ← abs_mul, abs_of_nonneg t3] at h4
    nlinarith
  have hlt : |x - y * T| < |y| := by
    rw [hr, abs_mul]
    have : 0 < |y| := abs_pos.2 h0
    nlinarith
  have hle' : |x - y * T| ≤ |x| := by
    rw [hr, abs_mul]
    conv_rhs => rw [hxy]
    rw [abs_mul]
    exact mul_le_mul_of_nonneg_left hle (abs_nonneg _)
  refine ⟨x - y * T, hk, ⟨⟨T, by ring⟩, hlt, ?_⟩, ?_⟩
  · rw [hr]
    have e : x * (y * (t - T)) = y * y * (t * (t - T)) := by conv_lhs => rw [hxy]
                                                             ring
    rw [e]
    exact mul_nonneg (mul_self_nonneg y) htT
  · obtain ⟨m, e, hm, e1, e2, hxm⟩ := hx
    obtain ⟨n, k, hn, k1, k2, hyn⟩ := hy
    have bound : ∀ (R M g : Int), |(R : ℚ) * 2 ^ g| ≤ |(M : ℚ) * 2 ^ g| → |M| < 2 ^ p → |R| < 2 ^ p := by
      intro R M g h hM
      rw [abs_mul, abs_mul] at h
      have h' : |(R : ℚ)| ≤ |(M : ℚ)| := le_of_mul_le_mul_right h (abs_pos.2 (two_zpow_pos g).ne')
      have : |R| ≤ |M| := by exact_mod_cast h'
      omega
    rcases le_total k e with hke | hke
    · obtain ⟨M, hM⟩ := zpow_multiple m hke
      have er : x - y * T = ((M - n * T : Int) : ℚ) * 2 ^ k := by
        rw [hxm, hM, hyn]; push_cast; ring
      refine ⟨M - n * T, k, ?_, k1, k2, er⟩
      apply bound _ n k _ hn
      rw [← er, ← hyn]
      exact hlt.le
    · obtain ⟨N, hN⟩ := zpow_multiple n hke
      have er : x - y * T = ((m - N * T : Int) : ℚ) * 2 ^ e := by
        rw [hxm, hyn, hN]; push_cast; ring
      refine ⟨m - N * T, e, ?_, e1, e2, er⟩
      apply bound _ m e _ hm
      rw [← er, ← hxm]
      exact hle'

/-- A case: `-7 fmod 3 = -1`. -/
example : floatKernel 53 (-1074) 971 false .mod (.num (-7)) (.num 3) = .num (-1) := by decide +kernel

/-- `%`, whose result NumPy gives the sign of the divisor: right for operands of the same sign.  (Missing: operands of
different signs, where the code violates it.) -/
theorem C93_remainder_partial (p : Nat) (lo hi : Int) (neg : Bool) (x y : ℚ) (hx : IsFloat p lo hi x) (hy : IsFloat p lo hi y)
    (h0 : y ≠ 0) (hs : 0 ≤ x * y) :
    ∃ r, floatKernel p lo hi neg .mod (.num x) (.num y) = .num r ∧ IsFloorMod x y r := by
  obtain ⟨r, hk, ⟨hn, hlt, hsg⟩, -⟩ := C93_fmod p lo hi neg x y hx hy h0
  refine ⟨r, hk, hn, ?_⟩
  rcases lt_or_gt_of_ne h0 with hy0 | hy0
  · right
    rw [abs_of_neg hy0] at hlt
    obtain ⟨h1, h2⟩ := abs_lt.1 hlt
    have hx0 : x ≤ 0 := by nlinarith
    rcases eq_or_lt_of_le hx0 with rfl | hx1
    · -- the remainder of zero is zero
      obtain ⟨n, hn⟩ := hn
      have hr : r = -(n * y) := by linarith
      have hn0 : n = 0 := by
        have ha : |(n : ℚ)| < 1 := by
          have : |(n : ℚ)| * |y| < 1 * |y| := by
            rw [one_mul, ← abs_mul, abs_of_neg hy0, ← abs_neg, ← hr]; exact hlt
          exact lt_of_mul_lt_mul_right this (abs_nonneg _)
        have : |n| < 1 := by exact_mod_cast ha
        rwa [Int.abs_lt_one_iff] at this
      rw [hn0] at hr
      simp only [Int.cast_zero, zero_mul, neg_zero] at hr
      rw [hr]
      exact ⟨hy0, le_refl _⟩
    · refine ⟨by linarith, ?_⟩
      by_contra hc
      push Not at hc
      nlinarith
  · left
    rw [abs_of_pos hy0] at hlt
    obtain ⟨h1, h2⟩ := abs_lt.1 hlt
    have hx0 : 0 ≤ x := by nlinarith
    rcases eq_or_lt_of_le hx0 with h | hx1
    · obtain ⟨n, hn⟩ := hn
      have hr : r = -(n * y) := by linarith
      have hn0 : n = 0 := by
        have ha : |(n : ℚ)| < 1 := by
          have : |(n : ℚ)| * |y| < 1 * |y| := by
            rw [one_mul, ← abs_mul, abs_of_pos hy0, ← abs_neg, ← hr]; exact hlt
          exact lt_of_mul_lt_mul_right this (abs_nonneg _)
        have : |n| < 1 := by exact_mod_cast ha
        rwa [Int.abs_lt_one_iff] at this
      rw [hn0] at hr
      simp only [Int.cast_zero, zero_mul, neg_zero] at hr
      rw [hr]
      exact ⟨le_refl _, hy0⟩
    · refine ⟨?_, h2⟩
      by_contra hc
      push Not at hc
      nlinarith

/-- The code violates the property: `-7.0 % 3.0` is `-1.0`, NumPy gives `2.0`; and `divmod` does not satisfy
`q * y + r = x`. -/
theorem C93_remainder_counterexample :
    floatKernel 53 (-1074) 971 false .mod (.num (-7)) (.num 3) = .num (-1) ∧ ¬ IsFloorMod (-7) 3 (-1) ∧ IsFloorMod (-7) 3 2 ∧
      divmodKernel 53 (-1074) 971 false (.num (-7)) (.num 3) = (.num (-3), .num (-1)) ∧ ((-3 : ℚ) * 3 + -1 ≠ -7) := by
  refine ⟨by decide +kernel, ?_, ⟨⟨-3, by norm_num⟩, by norm_num⟩, by decide +kernel, by norm_num⟩
  rintro ⟨-, h | h⟩ <;> norm_num at h

/-! ### Floor division -/

/-- Floor division of whole numbers is exact.  (Missing: other numbers, for which the rounded quotient can lie on the wrong
side of a whole number.) -/
theorem C93_floor_divide_partial (p : Nat) (lo hi : Int) (hp : 0 < p) (h1 : lo ≤ 0) (h2 : 1 ≤ hi) (h3 : hi + p ≤ -lo) (neg : Bool) (x y : Int)
    (hx : |x| < 2 ^ p) (hy : IsFloat p lo hi (y : ℚ)) (h0 : y ≠ 0) :
    floatKernel p lo hi neg .floorDiv (.num x) (.num y) = .num ⌊(x : ℚ) / y⌋ := by
  have hyq : (y : ℚ) ≠ 0 := by exact_mod_cast h0
  have hk : floatKernel p lo hi neg .floorDiv (.num x) (.num y) = fltFloor (roundBin p lo hi ((x : ℚ) / y)) := by
    unfold floatKernel fltDiv
    dsimp only
    rw [if_neg hyq]
  rw [hk]
  have hyabs := isFloat_abs_lt hy
  have hy1 : (1 : ℚ) ≤ |(y : ℚ)| := by
    have : 1 ≤ |y| := Int.one_le_abs h0
    exact_mod_cast this
  have hxy : (x : ℚ) = (x : ℚ) / y * y := by field_simp
  have hxq : |(x : ℚ)| < 2 ^ p := by exact_mod_cast hx
  have hqx : |(x : ℚ) / y| * |(y : ℚ)| = |(x : ℚ)| := by rw [← abs_mul, ← hxy]
  generalize hq : (x : ℚ) / y = q at *
  have hqle : |q| ≤ |(x : ℚ)| := by
    rw [← hqx]
    exact le_mul_of_one_le_right (abs_nonneg _) hy1
  -- small whole numbers belong to the format
  have whole : ∀ n : Int, |n| ≤ 2 ^ p → IsFloat p lo hi (n : ℚ) := by
    intro n hn
    rcases lt_or_eq_of_le hn with h | h
    · exact ⟨n, 0, h, h1, by omega, by simp⟩
    · have hpp : (2 : Int) ^ p = 2 ^ (p - 1) * 2 := by rw [← pow_succ]; congr 1; omega
      have hlt : (2 : Int) ^ (p - 1) < 2 ^ p := pow_lt_pow_right₀ (by norm_num) (by omega)
      rcases abs_choice n with hc | hc
      · refine ⟨2 ^ (p - 1), 1, by rw [abs_of_pos (by positivity)]; exact hlt, by omega, h2, ?_⟩
        rw [zpow_one, show n = 2 ^ (p - 1) * 2 by rw [← hpp]; omega]
        push_cast; ring
      · refine ⟨-2 ^ (p - 1), 1, by rw [abs_neg, abs_of_pos (by positivity)]; exact hlt, by omega, h2, ?_⟩
        rw [zpow_one, show n = -(2 ^ (p - 1) * 2) by rw [← hpp]; omega]
        push_cast; ring
  have hfl := Int.floor_le q
  have hfl' := Int.lt_floor_add_one q
  have hqp : |q| < 2 ^ p := lt_of_le_of_lt hqle hxq
  obtain ⟨hq1, hq2⟩ := abs_lt.1 hqp
  have hn1 : -(2 : Int) ^ p ≤ ⌊q⌋ := by
    rw [Int.le_floor]
    push_cast
    exact hq1.le
  have hn2 : ⌊q⌋ < (2 : Int) ^ p := by
    rw [Int.floor_lt]
    push_cast
    exact hq2
  generalize hn : ⌊q⌋ = n at *
  have wn := whole n (abs_le.2 ⟨hn1, hn2.le⟩)
  have wn1 := whole (n + 1) (abs_le.2 ⟨by omega, by omega⟩)
  -- the quotient is not rounded to an infinity
  have hround : ∃ r, roundBin p lo hi q = .num r := by
    have hf := roundBin_isFlt hp (by omega : lo ≤ hi) q
    have hpos := fun (h : roundBin p lo hi q = .posInf) => roundBin_posInf (by omega : lo ≤ hi) h wn1
    cases hc : roundBin p lo hi q with
    | num r => exact ⟨r, rfl⟩
    | nan => unfold roundBin at hc; dsimp only at hc; split at hc <;> [cases hc; (split at hc <;> cases hc)]
    | posInf =>
      have := hpos hc
      push_cast at this
      linarith
    | negInf =>
      have hneg : roundBin p lo hi (-q) = .posInf := by rw [roundBin_neg, hc]; rfl
      have := roundBin_posInf (by omega : lo ≤ hi) hneg (isFloat_neg wn)
      linarith
  obtain ⟨r, hr⟩ := hround
  rw [hr]
  have near := fun {t : ℚ} (ht : IsFloat p lo hi t) => roundBin_nearest hp hr ht
  have err := roundBin_err hr
  show Flt.num _ = Flt.num _
  congr 2
  rw [Int.floor_eq_iff]
  rcases eq_or_lt_of_le hfl with he | hgt
  · have : r = q := by
      have := near wn
      rw [he] at this
      simp only [sub_self, abs_zero] at this
      have := abs_nonpos_iff.1 this
      linarith
    rw [this]
    exact ⟨hfl, hfl'⟩
  · -- the distance to the next whole number exceeds the error
    have hgap : 1 ≤ ((n : ℚ) + 1 - q) * |(y : ℚ)| := by
      have e : (((n + 1) * y - x : Int) : ℚ) = ((n : ℚ) + 1 - q) * y := by
        push_cast
        rw [sub_mul, ← hxy]
      have hne : (n + 1) * y - x ≠ 0 := by
        intro hc
        rw [hc, Int.cast_zero] at e
        rcases mul_eq_zero.1 e.symm with h | h
        · linarith
        · exact hyq h
      have : (1 : ℚ) ≤ |(((n + 1) * y - x : Int) : ℚ)| := by
        have := Int.one_le_abs hne
        exact_mod_cast this
      rw [e, abs_mul, abs_of_pos (by linarith)] at this
      exact this
    have hrange : (n : ℚ) ≤ r ∧ r ≤ n + 1 := by
      have a1 := near wn
      have a2 := near wn1
      push_cast at a2
      rw [abs_of_pos (show 0 < q - (n : ℚ) by linarith)] at a1
      rw [abs_of_neg (show q - ((n : ℚ) + 1) < 0 by linarith)] at a2
      obtain ⟨b1, b2⟩ := abs_le.1 a1
      obtain ⟨c1, c2⟩ := abs_le.1 a2
      constructor <;> linarith
    refine ⟨hrange.1, lt_of_le_of_ne hrange.2 ?_⟩
    intro hc
    have habs : |q - ((n : ℚ) + 1)| = (n : ℚ) + 1 - q := by rw [abs_of_neg (by linarith)]; ring
    rw [hc, habs] at err
    have hy0 : (0 : ℚ) < |(y : ℚ)| := by linarith
    have herr : 1 ≤ 2 ^ (max lo (Int.log 2 |q| - p + 1)) / 2 * |(y : ℚ)| := by
      have := mul_le_mul_of_nonneg_right err hy0.le
      linarith
    rcases le_total lo (Int.log 2 |q| - p + 1) with hm | hm
    · rw [max_eq_right hm] at herr
      have hq0 : q ≠ 0 := by
        rintro rfl
        have : n = 0 := by rw [← hn]; simp
        rw [this] at hgt
        simp at hgt
      have hb := (log_bounds hq0).1
      have e2 : (2 : ℚ) ^ (Int.log 2 |q| - p + 1) / 2 = 2 ^ Int.log 2 |q| / 2 ^ p := by
        rw [zpow_add_one₀ (by norm_num), zpow_sub₀ (by norm_num), zpow_natCast]
        ring
      rw [e2] at herr
      have : 2 ^ Int.log 2 |q| / 2 ^ p * |(y : ℚ)| < 1 := by
        rw [div_mul_eq_mul_div, div_lt_one (by positivity)]
        have := mul_le_mul_of_nonneg_right hb hy0.le
        linarith
      linarith
    · rw [max_eq_left hm] at herr
      have h4 : (2 : ℚ) ^ lo * |(y : ℚ)| < 1 := by
        have h5 := mul_lt_mul_of_pos_left hyabs (two_zpow_pos lo)
        rw [← zpow_add₀ (by norm_num)] at h5
        have h6 : (2 : ℚ) ^ (lo + (hi + p)) ≤ 2 ^ (0 : Int) := two_zpow_le (by omega)
        rw [zpow_zero] at h6
        linarith
      have := two_zpow_pos lo
      nlinarith

/-- A case: `-7 // 2` in double precision. -/
example : floatKernel 53 (-1074) 971 false .floorDiv (.num (-7 : Int)) (.num (2 : Int)) = .num (-4) := by
  have := C93_floor_divide_partial 53 (-1074) 971 (by decide) (by decide) (by decide) (by decide) false (-7) 2 (by decide)
    ⟨2, 0, by decide, by decide, by decide, by norm_num⟩ (by decide)
  rw [this]
  norm_num

/-- The code violates the property: `1.0 // 0.1` is `10.0`, although the double `0.1` goes only nine times into 1. -/
theorem C93_floor_divide_counterexample :
    floatKernel 53 (-1074) 971 false .floorDiv (.num 1) (.num (3602879701896397 / 36028797018963968)) = .num 10 ∧
      IsFloat 53 (-1074) 971 (3602879701896397 / 36028797018963968) ∧
      ⌊(1 : ℚ) / (3602879701896397 / 36028797018963968)⌋ = 9 := by
  refine ⟨by decide +kernel, ⟨3602879701896397, -55, by decide, by decide, by decide, by norm_num⟩, by norm_num⟩

/-- A division by zero of different float dtypes gives NaN, of one dtype an infinity. -/
theorem C93_divide_counterexample :
    mixedKernel 53 (-1074) 971 false .div (.num 1) (.num 0) = .nan ∧
      floatKernel 53 (-1074) 971 false .div (.num 1) (.num 0) = .posInf := by decide +kernel

/-! ### Maximum and minimum -/

theorem fltLt_total {x y : Flt ℚ} (hx : x ≠ .nan) (hy : y ≠ .nan) (h : fltLt x y = false) : Cmp.le.HoldsFlt y x := by
  rw [← cmpFlt_iff]
  unfold cmpFlt
  dsimp only
  cases hl : fltLt y x with
  | true => rfl
  | false => rw [flt_trichotomy hy hx, hl, h]; rfl

theorem fltLt_le {x y : Flt ℚ} (h : fltLt x y = true) : Cmp.le.HoldsFlt x y := by
  rw [← cmpFlt_iff]
  unfold cmpFlt
  dsimp only
  rw [h]; rfl

theorem holdsFlt_refl {x : Flt ℚ} (h : x ≠ .nan) : Cmp.le.HoldsFlt x x := by
  cases x <;> simp_all [Cmp.HoldsFlt, Flt.place, Cmp.Holds]

theorem fltMax_is {x y : Flt ℚ} (hx : x ≠ .nan) (hy : y ≠ .nan) : IsLarger x y (fltMax x y) := by
  have n1 : fltIsNan x = false := by cases x <;> simp_all [fltIsNan]
  have n2 : fltIsNan y = false := by cases y <;> simp_all [fltIsNan]
  unfold fltMax
  rw [n1, n2, if_neg (by simp), if_neg (by simp)]
  cases h : fltLt x y with
  | true => rw [if_pos rfl]; exact ⟨.inr rfl, fltLt_le h, holdsFlt_refl hy⟩
  | false => rw [if_neg (by simp)]; exact ⟨.inl rfl, holdsFlt_refl hx, fltLt_total hx hy h⟩

theorem fltMin_is {x y : Flt ℚ} (hx : x ≠ .nan) (hy : y ≠ .nan) : IsSmaller x y (fltMin x y) := by
  have n1 : fltIsNan x = false := by cases x <;> simp_all [fltIsNan]
  have n2 : fltIsNan y = false := by cases y <;> simp_all [fltIsNan]
  unfold fltMin
  rw [n1, n2, if_neg (by simp), if_neg (by simp)]
  cases h : fltLt y x with
  | true => rw [if_pos rfl]; exact ⟨.inr rfl, fltLt_le h, holdsFlt_refl hy⟩
  | false => rw [if_neg (by simp)]; exact ⟨.inl rfl, holdsFlt_refl hx, fltLt_total hy hx h⟩

/-- `maximum` and `minimum` give NaN for NaN, otherwise the larger or smaller operand. -/
theorem C93_maximum (p : Nat) (lo hi : Int) (neg : Bool) (x y : Flt ℚ) :
    (x = .nan ∨ y = .nan → floatKernel p lo hi neg .maximum x y = .nan ∧ floatKernel p lo hi neg .minimum x y = .nan) ∧
      (x ≠ .nan → y ≠ .nan → IsLarger x y (floatKernel p lo hi neg .maximum x y) ∧ IsSmaller x y (floatKernel p lo hi neg .minimum x y)) := by
  constructor
  · rintro (rfl | rfl)
    · exact ⟨rfl, rfl⟩
    · cases x <;> exact ⟨rfl, rfl⟩
  · intro hx hy
    have n1 : fltIsNan x = false := by cases x <;> simp_all [fltIsNan]
    have n2 : fltIsNan y = false := by cases y <;> simp_all [fltIsNan]
    unfold floatKernel
    dsimp only
    rw [n1, n2, if_neg (by simp), if_neg (by simp)]
    exact ⟨fltMax_is hx hy, fltMin_is hx hy⟩

/-- `fmax` and `fmin` ignore NaN unless both operands are NaN. -/
theorem C93_fmax (p : Nat) (lo hi : Int) (neg : Bool) (x y : Flt ℚ) :
    (y = .nan → floatKernel p lo hi neg .fmax x y = x ∧ floatKernel p lo hi neg .fmin x y = x) ∧
      (x = .nan → floatKernel p lo hi neg .fmax x y = y ∧ floatKernel p lo hi neg .fmin x y = y) ∧
      (x ≠ .nan → y ≠ .nan → IsLarger x y (floatKernel p lo hi neg .fmax x y) ∧ IsSmaller x y (floatKernel p lo hi neg .fmin x y)) := by
  refine ⟨?_, ?_, ?_⟩
  · rintro rfl; exact ⟨rfl, rfl⟩
  · rintro rfl; cases y <;> exact ⟨rfl, rfl⟩
  · intro hx hy
    have n1 : fltIsNan x = false := by cases x <;> simp_all [fltIsNan]
    have n2 : fltIsNan y = false := by cases y <;> simp_all [fltIsNan]
    unfold floatKernel
    dsimp only
    rw [n1, n2, if_neg (by simp), if_neg (by simp), if_neg (by simp), if_neg (by simp)]
    exact ⟨fltMax_is hx hy, fltMin_is hx hy⟩

/-- A case: NaN against a number. -/
example : floatKernel 53 (-1074) 971 false .maximum .nan (.num 1) = .nan ∧ floatKernel 53 (-1074) 971 false .fmax .nan (.num 1) = .num 1 ∧
    floatKernel 53 (-1074) 971 false .minimum (.num 2) .negInf = .negInf := by decide +kernel

/-- In `float16` the operations that select an operand or take a remainder are exact: the detour through `float32` does not
change them. -/
theorem C93_half_exact (neg : Bool) (op : FltOp) (hop : op ∈ [.mod, .maximum, .minimum, .fmax, .fmin]) (x y : Flt ℚ)
    (hx : IsFlt 11 (-24) 5 x) (hy : IsFlt 11 (-24) 5 y) : halfKernel neg op x y = floatKernel 11 (-24) 5 neg op x y := by
  have key : IsFlt 11 (-24) 5 (floatKernel 24 (-149) 104 neg op x y) → halfKernel neg op x y = floatKernel 11 (-24) 5 neg op x y := by
    intro h
    have e : floatKernel 24 (-149) 104 neg op x y = floatKernel 11 (-24) 5 neg op x y := by
      simp only [List.mem_cons, List.not_mem_nil, or_false] at hop
      rcases hop with rfl | rfl | rfl | rfl | rfl <;> rfl
    unfold halfKernel
    rw [← e]
    cases hc : floatKernel 24 (-149) 104 neg op x y with
    | num q => rw [hc] at h; exact roundBin_exact h
    | _ => rfl
  apply key
  have hmax : IsFlt 11 (-24) 5 (fltMax x y) := by
    unfold fltMax
    split
    · exact hy
    · split
      · exact hx
      · split <;> assumption
  have hmin : IsFlt 11 (-24) 5 (fltMin x y) := by
    unfold fltMin
    split
    · exact hy
    · split
      · exact hx
      · split <;> assumption
  simp only [List.mem_cons, List.not_mem_nil, or_false] at hop
  rcases hop with rfl | rfl | rfl | rfl | rfl
  · cases x <;> cases y <;> try trivial
    rename_i a b
    by_cases hb : b = 0
    · have e : floatKernel 24 (-149) 104 neg .mod (.num a) (.num b) = .nan := by
        unfold floatKernel fltRem
        dsimp only
        rw [if_pos hb]
      rw [e]
      trivial
    · obtain ⟨r, hr, -, hf⟩ := C93_fmod 11 (-24) 5 neg a b hx hy hb
      have : floatKernel 24 (-149) 104 neg .mod (.num a) (.num b) = .num r := hr
      rw [this]
      exact hf
  · unfold floatKernel; dsimp only; split <;> [trivial; exact hmax]
  · unfold floatKernel; dsimp only; split <;> [trivial; exact hmin]
  · unfold floatKernel; dsimp only; split <;> [exact hx; (split <;> [exact hy; exact hmax])]
  · unfold floatKernel; dsimp only; split <;> [exact hx; (split <;> [exact hy; exact hmin])]

/-- A case: the largest half-precision number modulo 3. -/
example : halfKernel false .mod (.num 65504) (.num 3) = .num 2 := by decide +kernel

/-! ### Arithmetic in a wider format -/

/-- The four operations computed in a wide enough format and then rounded give what the narrow format would give itself: the
second rounding does no harm. -/
theorem doubles_arithmetic {p P : Nat} {lo hi Lo Hi : Int} (h : Doubles p lo hi P Lo Hi) (neg : Bool) (op : FltOp)
    (hop : op ∈ [.add, .sub, .mul, .div]) (x y : Flt ℚ) (hx : IsFlt p lo hi x) (hy : IsFlt p lo hi y) :
    toFormat p lo hi (floatKernel P Lo Hi neg op x y) = floatKernel p lo hi neg op x y := by
  have h0 : roundBin p lo hi 0 = .num 0 := roundBin_exact (isFloat_nought p h.range)
  have key : ∀ q, (∃ q', roundBin P Lo Hi q = .num q' ∧ roundBin p lo hi q' = roundBin p lo hi q) →
      toFormat p lo hi (roundBin P Lo Hi q) = roundBin p lo hi q := by
    rintro q ⟨q', h1, h2⟩
    rw [h1]
    exact h2
  simp only [List.mem_cons, List.not_mem_nil, or_false] at hop
  rcases hop with rfl | rfl | rfl | rfl
  · cases x <;> cases y <;> try rfl
    exact key _ (h.add hx hy)
  · cases x <;> cases y <;> try rfl
    rename_i a b
    show toFormat p lo hi (roundBin P Lo Hi (a - b)) = roundBin p lo hi (a - b)
    rw [sub_eq_add_neg]
    exact key _ (h.add hx (isFloat_neg hy))
  · cases x <;> cases y <;> try rfl
    all_goals try (show toFormat p lo hi (if _ then _ else if _ then _ else _) = if _ then _ else if _ then _ else _
                   split <;> [rfl; (split <;> rfl)])
    exact key _ ⟨_, roundBin_exact (h.mul hx hy), rfl⟩
  · cases x <;> cases y <;> try rfl
    all_goals try exact h0
    · rename_i b
      show toFormat p lo hi (if b < 0 ∨ (b = 0 ∧ neg = true) then .posInf else .negInf) = if b < 0 ∨ (b = 0 ∧ neg = true) then .posInf else .negInf
      split <;> rfl
    · rename_i a b
      show toFormat p lo hi (if b = 0 then if a = 0 then .nan else if decide (a < 0) = neg then .posInf else .negInf else roundBin P Lo Hi (a / b)) =
        if b = 0 then if a = 0 then .nan else if decide (a < 0) = neg then .posInf else .negInf else roundBin p lo hi (a / b)
      by_cases hb : b = 0
      · rw [if_pos hb, if_pos hb]
        split <;> [rfl; (split <;> rfl)]
      · rw [if_neg hb, if_neg hb]
        exact key _ (h.div hx hy hb)
    · rename_i b
      show toFormat p lo hi (if b < 0 ∨ (b = 0 ∧ neg = true) then .negInf else .posInf) = if b < 0 ∨ (b = 0 ∧ neg = true) then .negInf else .posInf
      split <;> rfl

/-- `float16` sums, differences, products and quotients are computed in `float32` and rounded again.  The result is the one
correct rounding of the exact result (ties to even) all the same, for all operands. -/
theorem C93_half_arithmetic (neg : Bool) (op : FltOp) (hop : op ∈ [.add, .sub, .mul, .div]) (x y : Flt ℚ)
    (hx : IsFlt 11 (-24) 5 x) (hy : IsFlt 11 (-24) 5 y) : halfKernel neg op x y = floatKernel 11 (-24) 5 neg op x y :=
  doubles_arithmetic (by constructor <;> norm_num) neg op hop x y hx hy

/-- In particular no number of `float16` is nearer to the exact result. -/
theorem C93_half_nearest (neg : Bool) (x y : ℚ) (hx : IsFloat 11 (-24) 5 x) (hy : IsFloat 11 (-24) 5 y) :
    IsRounding 11 (-24) 5 (.num (x + y)) (halfKernel neg .add (.num x) (.num y)) ∧
    IsRounding 11 (-24) 5 (.num (x - y)) (halfKernel neg .sub (.num x) (.num y)) ∧
    IsRounding 11 (-24) 5 (.num (x * y)) (halfKernel neg .mul (.num x) (.num y)) ∧
    (y ≠ 0 → IsRounding 11 (-24) 5 (.num (x / y)) (halfKernel neg .div (.num x) (.num y))) := by
  have r : ∀ q : ℚ, IsRounding 11 (-24) 5 (.num q) (roundBin 11 (-24) 5 q) := fun q =>
    toFormat_rounding (by norm_num) (by norm_num) (.num q)
  have e : ∀ op, op ∈ [FltOp.add, .sub, .mul, .div] → halfKernel neg op (.num x) (.num y) = floatKernel 11 (-24) 5 neg op (.num x) (.num y) :=
    fun op hop => C93_half_arithmetic neg op hop _ _ hx hy
  refine ⟨?_, ?_, ?_, ?_⟩
  · rw [e _ (by simp)]; exact r _
  · rw [e _ (by simp)]; exact r _
  · rw [e _ (by simp)]; exact r _
  · intro h
    rw [e _ (by simp)]
    have : floatKernel 11 (-24) 5 neg .div (.num x) (.num y) = roundBin 11 (-24) 5 (x / y) := by
      show (if y = 0 then _ else roundBin 11 (-24) 5 (x / y)) = _
      rw [if_neg h]
    rw [this]
    exact r _

/-- A case: `1/3` and `2048 + 1` (a tie) in half precision. -/
example : halfKernel false .div (.num 1) (.num 3) = .num (1365 / 4096) ∧ halfKernel false .add (.num 2048) (.num 1) = .num 2048 ∧
    halfKernel false .add (.num 65504) (.num 16) = .posInf := by decide +kernel

/-- Arithmetic between `float16` and `float32` arrays goes through `float64` and is rounded to `float32`.  The sums,
differences and products, and the quotients by a number other than zero, are the correct roundings.  Missing: quotients by
zero, which become NaN (`C93_divide_counterexample`). -/
theorem C93_mixed_arithmetic_partial (neg : Bool) (op : FltOp) (hop : op ∈ [.add, .sub, .mul, .div]) (x y : Flt ℚ)
    (hx : IsFlt 24 (-149) 104 x) (hy : IsFlt 24 (-149) 104 y) (h0 : op = .div → y ≠ .num 0) :
    mixedKernel 24 (-149) 104 neg op x y = floatKernel 24 (-149) 104 neg op x y := by
  have h := doubles_arithmetic (p := 24) (lo := -149) (hi := 104) (P := 53) (Lo := -1074) (Hi := 971)
    (by constructor <;> norm_num) neg op hop x y hx hy
  unfold mixedKernel
  by_cases hd : op = .div
  · subst hd
    rw [if_pos rfl]
    have : fltEq y (.num 0) = false := by
      cases y with
      | num b =>
        have hb : b ≠ 0 := fun hc => h0 rfl (by rw [hc])
        simpa [fltEq] using hb
      | _ => rfl
    rw [this]
    exact h
  · rw [if_neg hd]
    exact h

/-- A case: `1/3` in single precision. -/
example : mixedKernel 24 (-149) 104 false .div (.num 1) (.num 3) = .num (11184811 / 33554432) := by decide +kernel

/-! ### Sign and rint -/

/-- `sign` of a float. -/
theorem C93_sign (v : Flt ℚ) : fltSign v = signOf v := by
  cases v with
  | num q =>
    unfold fltSign signOf fltIsNan fltLt
    dsimp only
    rw [if_neg (by simp)]
    by_cases h : 0 < q
    · simp [h]
    · by_cases h' : q < 0 <;> simp [h, h']
  | _ => rfl

example : fltSign .nan = .nan ∧ fltSign (.num (-3)) = .num (-1) := by decide +kernel

/-- `rint` rounds to the nearest whole number when there is only one.  (Missing: halfway cases, which NumPy rounds to the
even one.) -/
theorem C93_rint_partial (q : ℚ) (h : ∀ n : Int, |q - n| ≠ 1 / 2) : ∃ n : Int, fltRint (.num q) = .num n ∧ IsRint q n := by
  refine ⟨roundAway q, rfl, ?_, fun hc => absurd hc (h _)⟩
  unfold roundAway
  split
  · have h1 := Int.floor_le (q + 1 / 2)
    have h2 := Int.lt_floor_add_one (q + 1 / 2)
    rw [abs_le]
    constructor <;> linarith
  · have h1 := Int.le_ceil (q - 1 / 2)
    have h2 := Int.ceil_lt_add_one (q - 1 / 2)
    rw [abs_le]
    constructor <;> linarith

example : fltRint (.num (7 / 3)) = .num 2 := by decide +kernel

/-- The code violates the property: `rint(0.5)` is 1 and `rint(2.5)` is 3. -/
theorem C93_rint_counterexample : fltRint (.num (1 / 2)) = .num 1 ∧ ¬ IsRint (1 / 2) 1 ∧ IsRint (1 / 2) 0 ∧
    fltRint (.num (5 / 2)) = .num 3 ∧ ¬ IsRint (5 / 2) 3 := by
  refine ⟨by decide +kernel, ?_, ⟨by norm_num, fun _ => ⟨0, rfl⟩⟩, by decide +kernel, ?_⟩
  · rintro ⟨-, h⟩
    have := h (by norm_num [abs_of_neg])
    revert this; decide
  · rintro ⟨-, h⟩
    have := h (by norm_num [abs_of_neg])
    revert this; decide

/-! ### logaddexp -/

theorem log_add_exp (x y : ℝ) : max x y + Real.log (1 + Real.exp (-|x - y|)) = Real.log (Real.exp x + Real.exp y) := by
  have key : ∀ x y : ℝ, x ≤ y → y + Real.log (1 + Real.exp (-|x - y|)) = Real.log (Real.exp x + Real.exp y) := by
    intro x y h
    have e : Real.exp x + Real.exp y = Real.exp y * (1 + Real.exp (-|x - y|)) := by
      rw [abs_of_nonpos (by linarith), neg_neg, mul_add, mul_one, ← Real.exp_add]
      rw [add_comm]
      congr 2
      ring
    rw [e, Real.log_mul (Real.exp_pos _).ne' (by positivity), Real.log_exp]
  rcases le_total x y with h | h
  · rw [max_eq_right h]; exact key x y h
  · rw [max_eq_left h, abs_sub_comm, add_comm (Real.exp x)]; exact key y x h

theorem logb_add_pow (x y : ℝ) :
    max x y + Real.log (1 + (2 : ℝ) ^ (-|x - y|)) / Real.log 2 = Real.logb 2 ((2 : ℝ) ^ x + (2 : ℝ) ^ y) := by
  have key : ∀ x y : ℝ, x ≤ y → y + Real.log (1 + (2 : ℝ) ^ (-|x - y|)) / Real.log 2 = Real.logb 2 ((2 : ℝ) ^ x + (2 : ℝ) ^ y) := by
    intro x y h
    have e : (2 : ℝ) ^ x + (2 : ℝ) ^ y = (2 : ℝ) ^ y * (1 + (2 : ℝ) ^ (-|x - y|)) := by
      rw [abs_of_nonpos (by linarith), neg_neg, mul_add, mul_one, ← Real.rpow_add (by norm_num)]
      rw [add_comm]
      congr 2
      ring
    have hp : (0 : ℝ) < (2 : ℝ) ^ y := Real.rpow_pos_of_pos (by norm_num) _
    have hp' : (0 : ℝ) < (2 : ℝ) ^ (-|x - y|) := Real.rpow_pos_of_pos (by norm_num) _
    rw [e, Real.logb_mul hp.ne' (by positivity), Real.logb_rpow (by norm_num) (by norm_num)]
    rfl
  rcases le_total x y with h | h
  · rw [max_eq_right h]; exact key x y h
  · rw [max_eq_left h, abs_sub_comm, add_comm ((2 : ℝ) ^ x)]; exact key y x h

theorem realMax_num (x y : ℝ) : realMax (.num x) (.num y) = .num (max x y) := by
  unfold realMax fltMax fltIsNan fltLt
  dsimp only
  rw [if_neg (by simp), if_neg (by simp)]
  by_cases h : x < y
  · rw [if_pos (by simpa using h), max_eq_right h.le]
  · rw [if_neg (by simpa using h), max_eq_left (not_lt.1 h)]

/-- Operands for which the code handles NaN: none, or one beside a number. -/
def NanBesideNumber (x y : Flt ℝ) : Prop := (x = .nan → ∃ t, y = .num t) ∧ (y = .nan → ∃ t, x = .num t)

theorem logaddexp_cases (f : ℝ → ℝ) (g : Flt ℝ → Flt ℝ) (h : ℝ → ℝ → ℝ) (spec kernel : Flt ℝ → Flt ℝ → Flt ℝ)
    (hk : ∀ a b, kernel a b = if fltIsInf (realMax a b) then realMax a b else realAdd (realMax a b) (g (realNegAbs (realSub a b))))
    (hnum : ∀ x, g (.num x) = .num (f x)) (hbot : g .negInf = .num 0) (hnan : g .nan = .nan)
    (hh : ∀ x y, max x y + f (-|x - y|) = h x y)
    (s1 : ∀ y, spec .nan y = .nan) (s2 : ∀ x, spec x .nan = .nan) (s3 : ∀ y, y ≠ .nan → spec .posInf y = .posInf)
    (s4 : ∀ x, x ≠ .nan → spec x .posInf = .posInf) (s5 : ∀ y, spec .negInf y = y) (s6 : ∀ x, spec x .negInf = x)
    (s7 : ∀ x y, spec (.num x) (.num y) = .num (h x y)) (a b : Flt ℝ) (hn : NanBesideNumber a b) : kernel a b = spec a b := by
  rw [hk]
  cases a with
  | nan =>
    obtain ⟨t, rfl⟩ := hn.1 rfl
    rw [s1]
    have e1 : realMax .nan (.num t) = .num t := by simp [realMax, fltMax, fltIsNan]
    rw [e1, if_neg (by simp [fltIsInf])]
    show realAdd (.num t) (g .nan) = _
    rw [hnan]; rfl
  | negInf =>
    rw [s5]
    cases b with
    | nan => obtain ⟨t, ht⟩ := hn.2 rfl; cases ht
    | negInf => simp [realMax, fltMax, fltIsNan, fltLt, fltIsInf]
    | posInf => simp [realMax, fltMax, fltIsNan, fltLt, fltIsInf]
    | num t =>
      have e1 : realMax .negInf (.num t) = .num t := by simp [realMax, fltMax, fltIsNan, fltLt]
      rw [e1, if_neg (by simp [fltIsInf])]
      show realAdd (.num t) (g .negInf) = _
      rw [hbot]
      simp [realAdd]
  | posInf =>
    have e1 : b ≠ .nan → realMax .posInf b = .posInf := by
      intro hb
      cases b <;> simp_all [realMax, fltMax, fltIsNan, fltLt]
    cases b with
    | nan => obtain ⟨t, ht⟩ := hn.2 rfl; cases ht
    | _ => rw [s3 _ (by simp), e1 (by simp)]; simp [fltIsInf]
  | num t =>
    cases b with
    | nan =>
      rw [s2]
      have e1 : realMax (.num t) .nan = .num t := by simp [realMax, fltMax, fltIsNan]
      rw [e1, if_neg (by simp [fltIsInf])]
      show realAdd (.num t) (g .nan) = _
      rw [hnan]; rfl
    | negInf =>
      rw [s6]
      have e1 : realMax (.num t) .negInf = .num t := by simp [realMax, fltMax, fltIsNan, fltLt]
      rw [e1, if_neg (by simp [fltIsInf])]
      show realAdd (.num t) (g .negInf) = _
      rw [hbot]
      simp [realAdd]
    | posInf =>
      rw [s4 _ (by simp)]
      have e1 : realMax (.num t) .posInf = .posInf := by simp [realMax, fltMax, fltIsNan, fltLt]
      rw [e1]
      simp [fltIsInf]
    | num u =>
      rw [s7, realMax_num, if_neg (by simp [fltIsInf])]
      show realAdd _ (g (.num (-|t - u|))) = _
      rw [hnum]
      show Flt.num _ = _
      rw [hh]

/-- `logaddexp` is the logarithm of the sum of the exponentials, in exact arithmetic.  (Missing: NaN beside an infinity or
NaN, and rounding.) -/
theorem C93_logaddexp_partial (a b : Flt ℝ) (hn : NanBesideNumber a b) :
    logaddexpKernel a b = logaddexpSpec a b ∧ logaddexpMixed a b = logaddexpSpec a b := by
  have : logaddexpKernel a b = logaddexpSpec a b := by
    apply logaddexp_cases (fun x => Real.log (1 + Real.exp x))
      (fun t => realMap (fun x => Real.log (1 + x)) 0 (realMap Real.exp 0 t)) (fun x y => Real.log (Real.exp x + Real.exp y))
      logaddexpSpec logaddexpKernel (fun a b => rfl) (fun x => rfl) _ rfl log_add_exp
      _ _ _ _ _ _ (fun x y => rfl) a b hn
    · show Flt.num _ = _
      simp
    · intro y; rfl
    · intro x; cases x <;> rfl
    · intro y hy; cases y <;> simp_all [logaddexpSpec]
    · intro x hx; cases x <;> simp_all [logaddexpSpec]
    · intro y; cases y <;> rfl
    · intro x; cases x <;> rfl
  exact ⟨this, this⟩

/-- `logaddexp2` is the same to the base two. -/
theorem C93_logaddexp2_partial (a b : Flt ℝ) (hn : NanBesideNumber a b) :
    logaddexp2Kernel a b = logaddexp2Spec a b ∧ logaddexp2Mixed a b = logaddexp2Spec a b := by
  constructor
  · apply logaddexp_cases (fun x => Real.log (1 + (2 : ℝ) ^ x) / Real.log 2)
      (fun t => realMap (fun x => Real.log (1 + x) / Real.log 2) 0 (realMap (fun x => (2 : ℝ) ^ x) 0 t))
      (fun x y => Real.logb 2 ((2 : ℝ) ^ x + (2 : ℝ) ^ y)) logaddexp2Spec logaddexp2Kernel (fun a b => rfl) (fun x => rfl) _ rfl logb_add_pow
      _ _ _ _ _ _ (fun x y => rfl) a b hn
    · show Flt.num _ = _
      simp
    · intro y; rfl
    · intro x; cases x <;> rfl
    · intro y hy; cases y <;> simp_all [logaddexp2Spec]
    · intro x hx; cases x <;> simp_all [logaddexp2Spec]
    · intro y; cases y <;> rfl
    · intro x; cases x <;> rfl
  · apply logaddexp_cases (fun x => Real.log (1 + Real.exp (x * Real.log 2)) / Real.log 2)
      (fun t => realMap (fun x => Real.log (1 + x) / Real.log 2) 0 (realMap (fun x => Real.exp (x * Real.log 2)) 0 t))
      (fun x y => Real.logb 2 ((2 : ℝ) ^ x + (2 : ℝ) ^ y)) logaddexp2Spec logaddexp2Mixed (fun a b => rfl) (fun x => rfl) _ rfl
      _ _ _ _ _ _ _ (fun x y => rfl) a b hn
    · show Flt.num _ = _
      simp
    · intro x y
      rw [← logb_add_pow, Real.rpow_def_of_pos (by norm_num), mul_comm (Real.log 2)]
    · intro y; rfl
    · intro x; cases x <;> rfl
    · intro y hy; cases y <;> simp_all [logaddexp2Spec]
    · intro x hx; cases x <;> simp_all [logaddexp2Spec]
    · intro y; cases y <;> rfl
    · intro x; cases x <;> rfl

/-- A case: two equal numbers. -/
example : logaddexpKernel (.num 0) (.num 0) = .num (Real.log 2) := by
  rw [(C93_logaddexp_partial (.num 0) (.num 0) ⟨nofun, nofun⟩).1]
  show Flt.num _ = _
  rw [Real.exp_zero]
  norm_num

/-- The code violates the property: with an infinity NaN is lost. -/
theorem C93_logaddexp_counterexample :
    logaddexpKernel .nan .posInf = .posInf ∧ logaddexpSpec .nan .posInf = .nan ∧ logaddexpKernel .nan .negInf = .negInf := by
  refine ⟨?_, rfl, ?_⟩ <;> simp [logaddexpKernel, realMax, fltMax, fltIsNan, fltIsInf]

/-! ### nextafter -/

theorem nanPattern_is (F : BinFormat) (hF : F.Wide) : F.Pattern (nanPattern F) ∧ F.value (nanPattern F) = .nan := by
  have hf := hF.2.1
  have hlt : nanPattern F < 2 ^ (F.e + F.f) := by
    unfold nanPattern
    have h1 : 2 ^ (F.f - 1) < 2 ^ F.f := Nat.pow_lt_pow_right (by norm_num) (by omega)
    have h2 : 0 < 2 ^ F.e := Nat.two_pow_pos _
    rw [pow_add]
    calc (2 ^ F.e - 1) * 2 ^ F.f + 2 ^ (F.f - 1) < (2 ^ F.e - 1) * 2 ^ F.f + 2 ^ F.f := by omega
      _ = (2 ^ F.e - 1 + 1) * 2 ^ F.f := by ring
      _ = 2 ^ F.e * 2 ^ F.f := by rw [Nat.sub_add_cancel h2]
  have h := pattern_mk F (s := 0) (.inl rfl) hlt
  have hv := value_nan_iff F (s := 0) hlt
  rw [zero_mul, zero_add] at h hv
  refine ⟨h, hv.2 ?_⟩
  unfold nanPattern infPattern
  have : 0 < 2 ^ (F.f - 1) := Nat.two_pow_pos _
  omega

/-- Two patterns that are not NaN, by their places. -/
theorem holds_lt (F : BinFormat) (hF : F.Wide) {s n t m : Nat} (hs : s = 0 ∨ s = 1) (ht : t = 0 ∨ t = 1) (hn : n ≤ infPattern F)
    (hm : m ≤ infPattern F) :
    Cmp.lt.HoldsFlt (F.value (s * 2 ^ (F.e + F.f) + n)) (F.value (t * 2 ^ (F.e + F.f) + m)) ↔ ordOf s n < ordOf t m := by
  rw [← cmpFlt_iff]
  show fltLt _ _ = true ↔ _
  rw [value_lt F hF hs ht hn hm, decide_eq_true_eq]

theorem holds_gt {x y : Flt ℚ} : Cmp.gt.HoldsFlt x y ↔ Cmp.lt.HoldsFlt y x := by
  rw [← cmpFlt_iff, ← cmpFlt_iff]; rfl

theorem not_holds_nan {op : Cmp} (h : op ≠ .ne) {x y : Flt ℚ} (hn : x = .nan ∨ y = .nan) : ¬ op.HoldsFlt x y := by
  intro hc
  rcases hn with rfl | rfl
  · exact h hc
  · cases x <;> exact h hc

/-- A neighbouring place gives the next float. -/
theorem isNextafter_of (F : BinFormat) (hF : F.Wide) {s n t m u k : Nat} (hs : s = 0 ∨ s = 1) (ht : t = 0 ∨ t = 1) (hu : u = 0 ∨ u = 1)
    (hn : n ≤ infPattern F) (hm : m ≤ infPattern F) (hk : k ≤ infPattern F) (hup : ordOf s n < ordOf t m → ordOf u k = ordOf s n + 1)
    (hdown : ordOf t m < ordOf s n → ordOf u k = ordOf s n - 1)
    (heq : ordOf s n = ordOf t m → F.value (u * 2 ^ (F.e + F.f) + k) = F.value (t * 2 ^ (F.e + F.f) + m)) :
    IsNextafter F (s * 2 ^ (F.e + F.f) + n) (t * 2 ^ (F.e + F.f) + m) (u * 2 ^ (F.e + F.f) + k) := by
  have hI := infPattern_lt F
  refine ⟨pattern_mk F hu (by omega), ?_, ?_, ?_, ?_⟩
  · rintro (h | h)
    · rw [value_nan_iff F (by omega)] at h; omega
    · rw [value_nan_iff F (by omega)] at h; omega
  · intro h
    rw [← cmpFlt_iff] at h
    have h' : fltEq (F.value (s * 2 ^ (F.e + F.f) + n)) (F.value (t * 2 ^ (F.e + F.f) + m)) = true := h
    rw [value_eq F hF hs ht hn hm, decide_eq_true_eq] at h'
    exact heq h'
  · intro h
    rw [holds_lt F hF hs ht hn hm] at h
    have := hup h
    refine ⟨(holds_lt F hF hs hu hn hk).2 (by omega), ?_⟩
    rintro d hd ⟨h1, h2⟩
    obtain ⟨v, j, hv, hj, rfl⟩ := pattern_cases F hd
    by_cases hnan : infPattern F < j
    · exact not_holds_nan (by simp) (.inr ((value_nan_iff F hj).2 hnan)) h1
    · rw [holds_lt F hF hs hv hn (by omega)] at h1
      rw [holds_lt F hF hv hu (by omega) hk] at h2
      omega
  · intro h
    rw [holds_gt, holds_lt F hF ht hs hm hn] at h
    have := hdown h
    refine ⟨holds_gt.2 ((holds_lt F hF hu hs hk hn).2 (by omega)), ?_⟩
    rintro d hd ⟨h1, h2⟩
    rw [holds_gt] at h1 h2
    obtain ⟨v, j, hv, hj, rfl⟩ := pattern_cases F hd
    by_cases hnan : infPattern F < j
    · exact not_holds_nan (by simp) (.inl ((value_nan_iff F hj).2 hnan)) h1
    · rw [holds_lt F hF hv hs (by omega) hn] at h1
      rw [holds_lt F hF hu hv hk (by omega)] at h2
      omega

theorem fltIsNan_iff {x : Flt ℚ} : fltIsNan x = true ↔ x = .nan := by cases x <;> simp [fltIsNan]

theorem isNextafter_nan (F : BinFormat) (hF : F.Wide) (a b : Nat) (h : F.value a = .nan ∨ F.value b = .nan) :
    IsNextafter F a b (nanPattern F) :=
  ⟨(nanPattern_is F hF).1, fun _ => (nanPattern_is F hF).2, fun hc => absurd hc (not_holds_nan (by simp) h),
    fun hc => absurd hc (not_holds_nan (by simp) h), fun hc => absurd hc (not_holds_nan (by simp) h)⟩

theorem fltEq_nan {x y : Flt ℚ} (h : x = .nan ∨ y = .nan) : fltEq x y = false := by
  rcases h with rfl | rfl
  · rfl
  · cases x <;> rfl

/-- `nextafter` of a positive float, towards anything.  (Missing: negative floats, zero going down and `-0.0`, where the code
steps the wrong way.) -/
theorem C93_nextafter_partial (F : BinFormat) (hF : F.Wide) (a b : Nat) (ha : F.Pattern a) (hb : F.Pattern b) (hs : F.sign a = 0)
    (h0 : a = 0 → ¬ Cmp.gt.HoldsFlt (F.value a) (F.value b)) : IsNextafter F a b (nextafterKernel F a b) := by
  have hI := infPattern_lt F
  obtain ⟨s, n, hs', hn, rfl⟩ := pattern_cases F ha
  obtain ⟨t, m, ht, hm, rfl⟩ := pattern_cases F hb
  rw [(fields F hn).1] at hs
  subst hs
  by_cases hnan : infPattern F < n ∨ infPattern F < m
  · have hv : F.value (0 * 2 ^ (F.e + F.f) + n) = .nan ∨ F.value (t * 2 ^ (F.e + F.f) + m) = .nan := by
      rcases hnan with h | h
      · exact .inl ((value_nan_iff F hn).2 h)
      · exact .inr ((value_nan_iff F hm).2 h)
    have e : nextafterKernel F (0 * 2 ^ (F.e + F.f) + n) (t * 2 ^ (F.e + F.f) + m) = nanPattern F := by
      unfold nextafterKernel
      have hn' : (fltIsNan (F.value (0 * 2 ^ (F.e + F.f) + n)) || fltIsNan (F.value (t * 2 ^ (F.e + F.f) + m))) = true := by
        rw [Bool.or_eq_true, fltIsNan_iff, fltIsNan_iff]; exact hv
      rw [fltEq_nan hv, if_neg (by simp), if_pos hn']
    rw [e]
    exact isNextafter_nan F hF _ _ hv
  · push Not at hnan
    obtain ⟨hn1, hm1⟩ := hnan
    have hnn : ¬ (fltIsNan (F.value (0 * 2 ^ (F.e + F.f) + n)) || fltIsNan (F.value (t * 2 ^ (F.e + F.f) + m))) = true := by
      rw [Bool.or_eq_true, fltIsNan_iff, fltIsNan_iff, value_nan_iff F hn, value_nan_iff F hm]
      omega
    rw [holds_gt, holds_lt F hF ht (.inl rfl) hm1 hn1, zero_mul, zero_add] at h0
    have e : nextafterKernel F (0 * 2 ^ (F.e + F.f) + n) (t * 2 ^ (F.e + F.f) + m) =
        if ordOf 0 n = ordOf t m then t * 2 ^ (F.e + F.f) + m else if ordOf 0 n < ordOf t m then 0 * 2 ^ (F.e + F.f) + (n + 1)
        else 0 * 2 ^ (F.e + F.f) + (n - 1) := by
      unfold nextafterKernel
      rw [value_eq F hF (.inl rfl) ht hn1 hm1, value_lt F hF (.inl rfl) ht hn1 hm1]
      have hpow : 2 ^ (1 + F.e + F.f) = 2 * 2 ^ (F.e + F.f) := by rw [add_assoc, pow_add, pow_one]
      rw [hpow]
      by_cases h1 : ordOf 0 n = ordOf t m
      · rw [if_pos (decide_eq_true h1), if_pos h1]
      · rw [if_neg (by simpa using h1), if_neg h1, if_neg hnn]
        by_cases h2 : ordOf 0 n < ordOf t m
        · rw [if_pos (decide_eq_true h2), if_pos h2, zero_mul, zero_add, zero_add, Nat.mod_eq_of_lt (by omega)]
        · rw [if_neg (by simpa using h2), if_neg h2, zero_mul, zero_add, zero_add]
          have hpos : 0 < n := by
            rcases Nat.eq_zero_or_pos n with h | h
            · exact absurd (show ordOf t m < ordOf 0 n by omega) (h0 h)
            · exact h
          rw [show n + (2 * 2 ^ (F.e + F.f) - 1) = (n - 1) + 2 * 2 ^ (F.e + F.f) by omega, Nat.add_mod_right, Nat.mod_eq_of_lt (by omega)]
    rw [e]
    by_cases h1 : ordOf 0 n = ordOf t m
    · rw [if_pos h1]
      exact isNextafter_of F hF (.inl rfl) ht ht hn1 hm1 hm1 (fun h => absurd h1 h.ne) (fun h => absurd h1 h.ne') (fun _ => rfl)
    · rw [if_neg h1]
      by_cases h2 : ordOf 0 n < ordOf t m
      · rw [if_pos h2]
        have hlt : n + 1 ≤ infPattern F := by
          unfold ordOf at h2
          simp only [if_true] at h2
          split at h2 <;> omega
        refine isNextafter_of F hF (.inl rfl) ht (.inl rfl) hn1 hm1 hlt (fun _ => ?_) (fun h => absurd h (not_lt.2 h2.le)) (fun h => absurd h h1)
        unfold ordOf
        simp
      · rw [if_neg h2]
        have hpos : 0 < n := by
          rcases Nat.eq_zero_or_pos n with h | h
          · exact absurd (show ordOf t m < ordOf 0 n by omega) (h0 h)
          · exact h
        refine isNextafter_of F hF (.inl rfl) ht (.inl rfl) hn1 hm1 (by omega) (fun h => absurd h h2) (fun _ => ?_) (fun h => absurd h h1)
        unfold ordOf
        simp only [if_true]
        omega

/-- `nextafter` for operands of different dtypes is right unless it has to leave zero against the sign of that zero. -/
theorem C93_nextafter_mixed_partial (F : BinFormat) (hF : F.Wide) (a b : Nat) (ha : F.Pattern a) (hb : F.Pattern b)
    (h0 : F.value a = .num 0 → (F.sign a = 0 → ¬ Cmp.gt.HoldsFlt (F.value a) (F.value b)) ∧
      (F.sign a = 1 → ¬ Cmp.lt.HoldsFlt (F.value a) (F.value b))) : IsNextafter F a b (nextafterMixed F a b) := by
  have hI := infPattern_lt F
  obtain ⟨s, n, hs, hn, rfl⟩ := pattern_cases F ha
  obtain ⟨t, m, ht, hm, rfl⟩ := pattern_cases F hb
  rw [(fields F hn).1] at h0
  by_cases hnan : infPattern F < n ∨ infPattern F < m
  · have hv : F.value (s * 2 ^ (F.e + F.f) + n) = .nan ∨ F.value (t * 2 ^ (F.e + F.f) + m) = .nan := by
      rcases hnan with h | h
      · exact .inl ((value_nan_iff F hn).2 h)
      · exact .inr ((value_nan_iff F hm).2 h)
    have e : nextafterMixed F (s * 2 ^ (F.e + F.f) + n) (t * 2 ^ (F.e + F.f) + m) = nanPattern F := by
      unfold nextafterMixed
      have hn' : (fltIsNan (F.value (s * 2 ^ (F.e + F.f) + n)) || fltIsNan (F.value (t * 2 ^ (F.e + F.f) + m))) = true := by
        rw [Bool.or_eq_true, fltIsNan_iff, fltIsNan_iff]; exact hv
      rw [if_pos hn']
    rw [e]
    exact isNextafter_nan F hF _ _ hv
  · push Not at hnan
    obtain ⟨hn1, hm1⟩ := hnan
    have hnn : ¬ (fltIsNan (F.value (s * 2 ^ (F.e + F.f) + n)) || fltIsNan (F.value (t * 2 ^ (F.e + F.f) + m))) = true := by
      rw [Bool.or_eq_true, fltIsNan_iff, fltIsNan_iff, value_nan_iff F hn, value_nan_iff F hm]
      omega
    have hzero : F.value (0 * 2 ^ (F.e + F.f) + 0) = .num 0 := by
      rw [value_cases F (Nat.two_pow_pos _), if_pos (infPattern_pos F hF), mag_zero, mul_zero]
    have hp := value_lt F hF (.inl rfl) hs (Nat.zero_le _) hn1 (s := 0) (n := 0)
    have hz := value_eq F hF hs (.inl rfl) hn1 (Nat.zero_le _) (t := 0) (m := 0)
    rw [hzero] at hp hz
    have hval0 : n = 0 → F.value (s * 2 ^ (F.e + F.f) + n) = .num 0 := by
      rintro rfl
      rw [value_cases F (Nat.two_pow_pos _), if_pos (infPattern_pos F hF), mag_zero, mul_zero]
    rw [holds_gt, holds_lt F hF ht hs hm1 hn1, holds_lt F hF hs ht hn1 hm1] at h0
    have h00 : n = 0 → (s = 0 → ¬ ordOf t m < ordOf s n) ∧ (s = 1 → ¬ ordOf s n < ordOf t m) := fun h => h0 (hval0 h)
    have ho0 : ordOf 0 0 = 0 := rfl
    rw [ho0] at hp hz
    have eup : ordOf s n < ordOf t m → nextafterMixed F (s * 2 ^ (F.e + F.f) + n) (t * 2 ^ (F.e + F.f) + m) =
        s * 2 ^ (F.e + F.f) + (if s = 0 then n + 1 else n - 1) := by
      intro h
      unfold nextafterMixed
      rw [if_neg hnn, value_eq F hF hs ht hn1 hm1, if_neg (by simpa using h.ne), value_lt F hF hs ht hn1 hm1, if_pos (decide_eq_true h), hp, hz]
      rcases hs with rfl | rfl
      · rw [if_pos rfl, if_pos]
        · ring
        · simp only [ordOf, if_true, Bool.or_eq_true, decide_eq_true_eq]; omega
      · have hn0 : n ≠ 0 := fun hc => (h00 hc).2 rfl h
        rw [if_neg (show ¬ (1 : Nat) = 0 by norm_num), if_neg]
        · omega
        · simp only [ordOf, one_ne_zero, if_false, Bool.or_eq_true, decide_eq_true_eq]; omega
    have edown : ordOf t m < ordOf s n → nextafterMixed F (s * 2 ^ (F.e + F.f) + n) (t * 2 ^ (F.e + F.f) + m) =
        s * 2 ^ (F.e + F.f) + (if s = 0 then n - 1 else n + 1) := by
      intro h
      unfold nextafterMixed
      rw [if_neg hnn, value_eq F hF hs ht hn1 hm1, if_neg (by simpa using h.ne'), value_lt F hF hs ht hn1 hm1, if_neg (by simpa using h.le), hp]
      rcases hs with rfl | rfl
      · have hn0 : n ≠ 0 := fun hc => (h00 hc).1 rfl h
        rw [if_pos rfl, if_pos]
        · omega
        · simp only [ordOf, if_true, decide_eq_true_eq]; omega
      · rw [if_neg (show ¬ (1 : Nat) = 0 by norm_num), if_neg]
        · omega
        · simp only [ordOf, one_ne_zero, if_false, decide_eq_true_eq]; omega
    rcases lt_trichotomy (ordOf s n) (ordOf t m) with h | h | h
    · rw [eup h]
      have hn0 : n = 0 → s ≠ 1 := fun hc hc' => (h00 hc).2 hc' h
      refine isNextafter_of F hF hs ht hs hn1 hm1 ?_ (fun _ => ?_) (fun hc => absurd hc (not_lt.2 h.le)) (fun hc => absurd hc h.ne)
      · rcases hs with rfl | rfl <;> rcases ht with rfl | rfl <;> simp only [ordOf, if_true, one_ne_zero, if_false] at h ⊢ <;> omega
      · rcases hs with rfl | rfl
        · simp [ordOf]
        · have : n ≠ 0 := fun hc => hn0 hc rfl
          simp only [ordOf, one_ne_zero, if_false]
          omega
    · have e : nextafterMixed F (s * 2 ^ (F.e + F.f) + n) (t * 2 ^ (F.e + F.f) + m) = t * 2 ^ (F.e + F.f) + m := by
        unfold nextafterMixed
        rw [if_neg hnn, value_eq F hF hs ht hn1 hm1, if_pos (decide_eq_true h)]
      rw [e]
      exact isNextafter_of F hF hs ht ht hn1 hm1 hm1 (fun hc => absurd h hc.ne) (fun hc => absurd h hc.ne') (fun _ => rfl)
    · rw [edown h]
      have hn0 : n = 0 → s ≠ 0 := fun hc hc' => (h00 hc).1 hc' h
      refine isNextafter_of F hF hs ht hs hn1 hm1 ?_ (fun hc => absurd hc (not_lt.2 h.le)) (fun _ => ?_) (fun hc => absurd hc h.ne')
      · rcases hs with rfl | rfl <;> rcases ht with rfl | rfl <;> simp only [ordOf, if_true, one_ne_zero, if_false] at h ⊢ <;> omega
      · rcases hs with rfl | rfl
        · have : n ≠ 0 := fun hc => hn0 hc rfl
          simp only [ordOf, if_true]
          omega
        · simp only [ordOf, one_ne_zero, if_false]
          push_cast
          omega

/-- Cases: from `1.0` down, and from the largest half-precision number to infinity. -/
example : nextafterKernel binary16 0x3c00 0 = 0x3bff ∧ nextafterKernel binary16 0x7bff 0x7c00 = 0x7c00 := by decide +kernel

/-- The code violates the property in `float16` (and in the same way in the other formats): `nextafter(-1, 0)` moves away from
zero, and `nextafter(0, -1)` is NaN. -/
theorem C93_nextafter_counterexample :
    (nextafterKernel binary16 0xbc00 0 = 0xbc01 ∧ fltLt (binary16.value 0xbc01) (binary16.value 0xbc00) = true ∧
        fltLt (binary16.value 0xbc00) (binary16.value 0) = true) ∧
      (nextafterKernel binary16 0 0xbc00 = 0xffff ∧ binary16.value 0xffff = .nan) := by decide +kernel

/-- For operands of different dtypes: `nextafter(0, -1)` is the smallest positive number. -/
theorem C93_nextafter_mixed_counterexample :
    nextafterMixed binary64 0 0xbff0000000000000 = 1 ∧ fltLt (binary64.value 0) (binary64.value 1) = true ∧
      fltLt (binary64.value 0xbff0000000000000) (binary64.value 0) = true := by decide +kernel

/-! ### bool -/

/-- On bools `+` and `maximum` are "or", `*` and `minimum` are "and".  (Missing: the other operations.) -/
theorem C93_bool_partial (a b : Bool) :
    (boolBinary .add a b = true ↔ a.toNat + b.toNat ≠ 0) ∧ (boolBinary .mul a b).toNat = a.toNat * b.toNat ∧
      (boolBinary .maximum a b).toNat = max a.toNat b.toNat ∧ (boolBinary .minimum a b).toNat = min a.toNat b.toNat := by
  cases a <;> cases b <;> decide

/-- The code violates the property: `%`, `//`, `**` and `/` give the left operand, where NumPy computes with 0 and 1. -/
theorem C93_bool_counterexample : boolBinary .mod true true = true ∧ 1 % 1 = 0 ∧ boolBinary .pow false false = false ∧ 0 ^ 0 = 1 ∧
    boolBinary .floorDiv true false = true := by decide

end Props
