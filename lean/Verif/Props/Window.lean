import Verif.Lemmas.Window
import Verif.Props.Special
import Mathlib.Analysis.SpecialFunctions.Trigonometric.Sinc
/-!
# C89: window functions, `sinc` and `i0`
-/

namespace Props
open Spec Rumpy Real

theorem reverse_range_map (m : ℕ) (g : ℕ → ℝ) (h : ∀ i, i < m → g (m - 1 - i) = g i) :
    ((List.range m).map g).reverse = (List.range m).map g := by
  apply List.ext_getElem
  · simp
  · intro i h1 h2
    have hi : i < m := by simpa using h2
    simp only [List.getElem_reverse, List.getElem_map, List.getElem_range, List.length_map, List.length_range]
    exact h i hi

/-- What the four windows of a formula have in common. -/
theorem isWindow_loop (f g : ℝ → ℝ → ℝ) (h : ∀ m n : ℝ, 1 < m → f (1 - m + 2 * n) (m - 1) = g m n) (m : Int) :
    IsWindow g m (if m < 1 then [] else if m = 1 then [1] else windowLoop f m) := by
  by_cases h1 : m < 1
  · rw [if_pos h1]
    exact ⟨by simp; omega, by omega, by omega⟩
  · by_cases h2 : m = 1
    · rw [if_neg h1, if_pos h2]
      exact ⟨by simp [h2], fun _ => rfl, by omega⟩
    · rw [if_neg h1, if_neg h2]
      refine ⟨by simp [windowLoop], by omega, fun hm n hn => ?_⟩
      have hr : n < m.toNat := by omega
      rw [windowLoop, List.getElem?_map, List.getElem?_range hr, Option.map_some]
      have hm' : (1 : ℝ) < m := by exact_mod_cast hm
      rw [← h m n hm']
      push_cast
      rfl

theorem taper_loop (f : ℝ → ℝ → ℝ) (hs : ∀ n d : ℝ, f (-n) d = f n d)
    (hr : ∀ n d : ℝ, 0 < d → -d ≤ n → n ≤ d → 0 ≤ f n d ∧ f n d ≤ 1) (m : Int) :
    IsTaper (if m < 1 then [] else if m = 1 then [1] else windowLoop f m) := by
  by_cases h1 : m < 1
  · rw [if_pos h1]
    exact ⟨rfl, by simp⟩
  · by_cases h2 : m = 1
    · rw [if_neg h1, if_pos h2]
      exact ⟨rfl, by simp⟩
    · rw [if_neg h1, if_neg h2]
      have hm' : (1 : ℝ) < m := by exact_mod_cast (by omega : (1 : Int) < m)
      refine ⟨reverse_range_map _ _ (fun i hi => ?_), fun x hx => ?_⟩
      · rw [← hs]
        congr 1
        have : ((m.toNat - 1 - i : ℕ) : Int) = m - 1 - i := by omega
        rw [this]
        push_cast
        ring
      · obtain ⟨i, hi, rfl⟩ := List.mem_map.mp hx
        have hi' : (i : ℝ) ≤ m - 1 := by
          have : (i : Int) ≤ m - 1 := by have := List.mem_range.mp hi; omega
          exact_mod_cast this
        have hi0 : (0 : ℝ) ≤ i := by positivity
        refine hr _ _ (by linarith) ?_ ?_ <;> push_cast <;> linarith

theorem cos_shift {m : ℝ} (hm : 1 < m) (n : ℝ) : cos (π * (1 - m + 2 * n) / (m - 1)) = -cos (2 * π * n / (m - 1)) := by
  have h : m - 1 ≠ 0 := by linarith
  have e : π * (1 - m + 2 * n) / (m - 1) = 2 * π * n / (m - 1) - π := by field_simp; ring
  rw [e, cos_sub_pi]

theorem cos_shift_two {m : ℝ} (hm : 1 < m) (n : ℝ) :
    cos (2 * π * (1 - m + 2 * n) / (m - 1)) = cos (4 * π * n / (m - 1)) := by
  have h : m - 1 ≠ 0 := by linarith
  have e : 2 * π * (1 - m + 2 * n) / (m - 1) = 4 * π * n / (m - 1) - 2 * π := by field_simp; ring
  rw [e, cos_sub_two_pi]

/-- The four windows of a formula have the values NumPy documents, for every number of points. -/
theorem C89_windows (m : Int) :
    IsWindow bartlettAt m (Rumpy.bartlett m) ∧ IsWindow hanningAt m (Rumpy.hanning m) ∧
    IsWindow hammingAt m (Rumpy.hamming m) ∧ IsWindow blackmanAt m (Rumpy.blackman m) := by
  refine ⟨isWindow_loop _ _ (fun m n hm => ?_) m, isWindow_loop _ _ (fun m n hm => ?_) m,
    isWindow_loop _ _ (fun m n hm => ?_) m, isWindow_loop _ _ (fun m n hm => ?_) m⟩
  · have h : m - 1 ≠ 0 := by linarith
    unfold bartlettValue bartlettAt
    split
    · next hc => rw [abs_of_nonpos (by linarith)]; field_simp; ring
    · next hc => rw [abs_of_nonneg (by linarith)]; field_simp; ring
  · dsimp only [hanningAt]
    rw [cos_shift hm]
    ring
  · dsimp only [hammingAt]
    rw [cos_shift hm]
    ring
  · dsimp only [blackmanAt]
    rw [cos_shift hm, cos_shift_two hm]
    ring

example : Rumpy.bartlett 5 = [0, 0.5, 1, 0.5, 0] := by
  have h : Rumpy.bartlett 5 = windowLoop bartlettValue 5 := by simp [Rumpy.bartlett]
  have r : List.range (Int.toNat 5) = [0, 1, 2, 3, 4] := by decide
  rw [h, windowLoop, r]
  norm_num [bartlettValue]

/-- Each of them is symmetric and stays between 0 and 1. -/
theorem C89_tapers (m : Int) :
    IsTaper (Rumpy.bartlett m) ∧ IsTaper (Rumpy.hanning m) ∧ IsTaper (Rumpy.hamming m) ∧ IsTaper (Rumpy.blackman m) := by
  refine ⟨taper_loop _ (fun n d => ?_) (fun n d hd h1 h2 => ?_) m, taper_loop _ (fun n d => ?_) (fun n d hd h1 h2 => ?_) m,
    taper_loop _ (fun n d => ?_) (fun n d hd h1 h2 => ?_) m, taper_loop _ (fun n d => ?_) (fun n d hd h1 h2 => ?_) m⟩
  · unfold bartlettValue
    rcases lt_trichotomy n 0 with h | h | h
    · rw [if_neg (by linarith), if_pos h.le]; ring
    · subst h; simp
    · rw [if_pos (by linarith), if_neg (by linarith)]; ring
  · unfold bartlettValue
    have e1 : -1 ≤ n / d := by rw [le_div_iff₀ hd]; linarith
    have e2 : n / d ≤ 1 := by rw [div_le_iff₀ hd]; linarith
    split
    · next h =>
      have : n / d ≤ 0 := div_nonpos_of_nonpos_of_nonneg h hd.le
      constructor <;> linarith
    · next h =>
      have : 0 ≤ n / d := div_nonneg (by linarith) hd.le
      constructor <;> linarith
  · rw [mul_neg, neg_div, cos_neg]
  · have a := neg_one_le_cos (π * n / d)
    have b := cos_le_one (π * n / d)
    constructor <;> norm_num <;> linarith
  · rw [mul_neg, neg_div, cos_neg]
  · have a := neg_one_le_cos (π * n / d)
    have b := cos_le_one (π * n / d)
    constructor <;> norm_num <;> linarith
  · rw [mul_neg, neg_div, cos_neg, mul_neg, neg_div, cos_neg]
  · have a := neg_one_le_cos (π * n / d)
    have b := cos_le_one (π * n / d)
    have e : cos (2 * π * n / d) = 2 * cos (π * n / d) ^ 2 - 1 := by
      rw [← cos_two_mul]
      congr 1
      ring
    rw [e]
    constructor <;> norm_num <;> nlinarith

/-- `i0` computes the Bessel function to the accuracy of the polynomial it uses, for arguments below 3.75. What is missing:
larger arguments. -/
theorem C89_i0_partial (x : ℝ) (hx : |x| < 3.75) : |besselI0Code x - besselI0 x| ≤ 1.6 / 10 ^ 7 := besselCode_accurate hx

example : |besselI0Code 3 - besselI0 3| ≤ 1.6 / 10 ^ 7 := C89_i0_partial 3 (by norm_num)

theorem besselCode_even (x : ℝ) : besselI0Code (-x) = besselI0Code x := by
  unfold besselI0Code
  dsimp only
  rw [abs_neg]
  split
  · congr 1; ring
  · rfl

/-- `i0` is even and 1 at 0. -/
theorem C89_i0_even (x : ℝ) : besselI0Code (-x) = besselI0Code x ∧ besselI0Code 0 = 1 := by
  refine ⟨besselCode_even x, ?_⟩
  unfold besselI0Code
  norm_num [besselPoly]

/-- It is not accurate to the precision of the arithmetic: at 1 it is wrong by more than `2 ^ -26`, where NumPy's is right to
`2 ^ -50`. -/
theorem C89_i0_counterexample : besselI0 1 - besselI0Code 1 > 1 / 2 ^ 26 := by
  have h := (bessel_partial_sum (x := 1) (by norm_num)).1
  have hc : besselI0Code 1 = besselPoly ((1 / 3.75) ^ 2) := by
    unfold besselI0Code
    dsimp only
    rw [if_pos (by norm_num)]
  rw [hc]
  refine lt_of_lt_of_le ?_ (sub_le_sub_right h _)
  simp only [besselCoeffs, List.range_succ, List.range_zero, List.nil_append, List.cons_append, List.map_cons, List.map_nil, polyEval,
    besselPoly, Nat.factorial]
  norm_num

theorem besselPoly_ge_one {y : ℝ} (hy : 0 ≤ y) : 1 ≤ besselPoly y := by
  unfold besselPoly
  have : 0 ≤ y * (35156229 / 10 ^ 7 + y * (30899424 / 10 ^ 7 + y * (12067492 / 10 ^ 7
    + y * (2659732 / 10 ^ 7 + y * (360768 / 10 ^ 7 + y * (45813 / 10 ^ 7)))))) := by positivity
  linarith

theorem besselPoly_mono {x y : ℝ} (hx : 0 ≤ x) (h : x ≤ y) : besselPoly x ≤ besselPoly y := by
  unfold besselPoly
  have hy : 0 ≤ y := hx.trans h
  gcongr

theorem besselCode_small {x : ℝ} (hx : |x| < 3.75) : besselI0Code x = besselPoly ((x / 3.75) ^ 2) := by
  unfold besselI0Code
  dsimp only
  rw [if_pos hx]

/-- The code's Bessel function is never 0. -/
theorem besselCode_pos (x : ℝ) : 0 < besselI0Code x := by
  by_cases hx : |x| < 3.75
  · rw [besselCode_small hx]
    linarith [besselPoly_ge_one (sq_nonneg (x / 3.75))]
  · unfold besselI0Code
    dsimp only
    rw [if_neg hx]
    have ha : (0 : ℝ) < |x| := by norm_num at hx; linarith
    refine mul_pos (div_pos (exp_pos _) (sqrt_pos.mpr ha)) ?_
    have h0 : 0 ≤ 3.75 / |x| := by positivity
    have h1 : 3.75 / |x| ≤ 1 := by rw [div_le_one ha]; exact not_lt.mp hx
    generalize 3.75 / |x| = y at h0 h1
    have hb := polySum_bound [0, 1328592 / 10 ^ 8, 225319 / 10 ^ 8, -157565 / 10 ^ 8, 916281 / 10 ^ 8, -2057706 / 10 ^ 8,
      2635537 / 10 ^ 8, -1647633 / 10 ^ 8, 392377 / 10 ^ 8] h0 h1
    have hs : polySum [0, 1328592 / 10 ^ 8, 225319 / 10 ^ 8, -157565 / 10 ^ 8, 916281 / 10 ^ 8, -2057706 / 10 ^ 8,
      2635537 / 10 ^ 8, -1647633 / 10 ^ 8, 392377 / 10 ^ 8] ≤ 1 / 10 := by decide +kernel
    have hs' : ((polySum [0, 1328592 / 10 ^ 8, 225319 / 10 ^ 8, -157565 / 10 ^ 8, 916281 / 10 ^ 8, -2057706 / 10 ^ 8,
      2635537 / 10 ^ 8, -1647633 / 10 ^ 8, 392377 / 10 ^ 8] : ℚ) : ℝ) ≤ ((1 / 10 : ℚ) : ℝ) := by exact_mod_cast hs
    have hl := (abs_le.mp (hb.trans hs')).1
    simp only [polyEval] at hl
    push_cast at hl
    norm_num at hl ⊢
    nlinarith

/-- The argument the code gives the Bessel function is the one of the formula. -/
theorem kaiser_arg {m : ℝ} (hm : 1 < m) (n : ℝ) :
    (n - (m - 1) / 2) / ((m - 1) / 2) * ((n - (m - 1) / 2) / ((m - 1) / 2)) = 4 * (n - (m - 1) / 2) ^ 2 / (m - 1) ^ 2 := by
  have h : m - 1 ≠ 0 := by linarith
  field_simp
  ring

theorem kaiser_get {m : Int} (hm : 1 < m) (beta : ℝ) {n : Nat} (hn : n < m) :
    (Rumpy.kaiser m beta)[n]? = some
      (besselI0Code (beta * sqrt (1 - 4 * ((n : ℝ) - ((m : ℝ) - 1) / 2) ^ 2 / ((m : ℝ) - 1) ^ 2)) / besselI0Code beta) := by
  unfold Rumpy.kaiser
  rw [if_neg (by omega), if_neg (by omega)]
  have hr : n < m.toNat := by omega
  dsimp only
  rw [List.getElem?_map, List.getElem?_range hr, Option.map_some, kaiser_arg (by exact_mod_cast hm)]

theorem kaiser_root {m : Int} (hm : 1 < m) {n : Nat} (hn : n < m) :
    sqrt (1 - 4 * ((n : ℝ) - ((m : ℝ) - 1) / 2) ^ 2 / ((m : ℝ) - 1) ^ 2) ≤ 1 := by
  rw [sqrt_le_one]
  have : 0 ≤ 4 * ((n : ℝ) - ((m : ℝ) - 1) / 2) ^ 2 / ((m : ℝ) - 1) ^ 2 := by positivity
  linarith

theorem kaiser_arg_le (beta : ℝ) {s : ℝ} (h0 : 0 ≤ s) (h1 : s ≤ 1) : |beta * s| ≤ |beta| := by
  rw [abs_mul, abs_of_nonneg h0]
  nlinarith [abs_nonneg beta]

/-- `kaiser` has the length of a window and the value 1 for one point, and is symmetric, whatever the shape parameter. -/
theorem C89_kaiser_symmetric (m : Int) (beta : ℝ) :
    (Rumpy.kaiser m beta).length = m.toNat ∧ (m = 1 → Rumpy.kaiser m beta = [1]) ∧
    (Rumpy.kaiser m beta).reverse = Rumpy.kaiser m beta ∧ ∀ x ∈ Rumpy.kaiser m beta, 0 < x := by
  unfold Rumpy.kaiser
  by_cases h1 : m < 1
  · rw [if_pos h1]
    exact ⟨by simp; omega, by omega, rfl, by simp⟩
  · by_cases h2 : m = 1
    · rw [if_neg h1, if_pos h2]
      exact ⟨by simp [h2], fun _ => rfl, rfl, by simp⟩
    · rw [if_neg h1, if_neg h2]
      dsimp only
      refine ⟨by simp, by omega, reverse_range_map _ _ (fun i hi => ?_), fun x hx => ?_⟩
      · have hc : ((m.toNat - 1 - i : ℕ) : ℝ) = (m : ℝ) - 1 - i := by
          have : ((m.toNat - 1 - i : ℕ) : Int) = m - 1 - i := by omega
          exact_mod_cast congrArg (Int.cast : Int → ℝ) this
        rw [hc]
        congr 4
        ring
      · obtain ⟨i, -, rfl⟩ := List.mem_map.mp hx
        exact div_pos (besselCode_pos _) (besselCode_pos _)

/-- In the middle of an odd number of points it is 1. -/
theorem C89_kaiser_peak (k : ℕ) (hk : 0 < k) (beta : ℝ) : (Rumpy.kaiser (2 * k + 1) beta)[k]? = some 1 := by
  have h := kaiser_get (m := 2 * k + 1) (by omega) beta (n := k) (by omega)
  rw [h]
  have e : ((k : ℝ) - ((((2 * (k : Int) + 1 : Int)) : ℝ) - 1) / 2) = 0 := by push_cast; ring
  rw [e]
  have := (besselCode_pos beta).ne'
  simp [this]

theorem quotient_close {a b A B : ℝ} (ha : |a - A| ≤ 1.6 / 10 ^ 7) (hb : |b - B| ≤ 1.6 / 10 ^ 7) (h : A ≤ B) (h0 : 0 ≤ A)
    (h1 : 1 ≤ B) : |a / b - A / B| ≤ 3.3 / 10 ^ 7 := by
  rw [abs_le] at ha hb
  norm_num at ha hb
  have hbpos : 0 < b := by linarith [hb.1]
  have hBpos : 0 < B := by linarith
  have e : a / b - A / B = ((a - A) * B - (b - B) * A) / (b * B) := by field_simp; ring
  rw [e, abs_le, le_div_iff₀ (mul_pos hbpos hBpos), div_le_iff₀ (mul_pos hbpos hBpos)]
  norm_num
  have k1 : (b - B) * A ≤ 1 / 6250000 * B := by nlinarith
  have k2 : -(1 / 6250000 * B) ≤ (b - B) * A := by nlinarith
  have k3 : (a - A) * B ≤ 1 / 6250000 * B := by nlinarith
  have k4 : -(1 / 6250000 * B) ≤ (a - A) * B := by nlinarith
  have k5 : 99 / 100 * B ≤ b * B := by nlinarith
  constructor <;> linarith

/-- `kaiser` follows the documented formula up to the error of its Bessel function, and is at most 1, for shape parameters below
3.75. What is missing: larger parameters. -/
theorem C89_kaiser_partial (m : Int) (beta : ℝ) (hb : |beta| < 3.75) (hm : 1 < m) (n : Nat) (hn : n < m) :
    ∃ w, (Rumpy.kaiser m beta)[n]? = some w ∧ |w - kaiserAt beta m n| ≤ 3.3 / 10 ^ 7 ∧ w ≤ 1 := by
  refine ⟨_, kaiser_get hm beta hn, ?_, ?_⟩
  · unfold kaiserAt
    have ha := kaiser_arg_le beta (sqrt_nonneg _) (kaiser_root hm hn)
    generalize beta * sqrt (1 - 4 * ((n : ℝ) - ((m : ℝ) - 1) / 2) ^ 2 / ((m : ℝ) - 1) ^ 2) = a at ha
    exact quotient_close (C89_i0_partial a (ha.trans_lt hb)) (C89_i0_partial beta hb) (bessel_mono ha)
      (by linarith [bessel_ge_one a]) (bessel_ge_one beta)
  · rw [div_le_one (besselCode_pos beta)]
    have ha := kaiser_arg_le beta (sqrt_nonneg _) (kaiser_root hm hn)
    rw [besselCode_small hb, besselCode_small (ha.trans_lt hb)]
    refine besselPoly_mono (sq_nonneg _) ?_
    rw [div_pow, div_pow]
    have := sq_le_sq.mpr ha
    gcongr

example : ∃ w, (Rumpy.kaiser 12 3)[5]? = some w ∧ |w - kaiserAt 3 12 5| ≤ 3.3 / 10 ^ 7 ∧ w ≤ 1 := by
  simpa using C89_kaiser_partial 12 3 (by norm_num) (by omega) 5 (by omega)

/-- `sinc` is the normalised sinc function: 1 at 0, 0 at the other integers, even, and nowhere above 1. -/
theorem C89_sinc (x : ℝ) :
    sincValue x = Real.sinc (π * x) ∧ sincValue 0 = 1 ∧ (∀ n : ℤ, n ≠ 0 → sincValue n = 0) ∧ sincValue (-x) = sincValue x ∧
    |sincValue x| ≤ 1 := by
  have h : ∀ x, sincValue x = Real.sinc (π * x) := by
    intro x
    unfold sincValue Real.sinc
    by_cases hx : x = 0
    · simp [hx]
    · rw [if_neg hx, if_neg (mul_ne_zero pi_ne_zero hx)]
  refine ⟨h x, by simp [sincValue], fun n hn => ?_, ?_, h x ▸ abs_sinc_le_one _⟩
  · unfold sincValue
    rw [if_neg (by exact_mod_cast hn), mul_comm π, sin_int_mul_pi, zero_div]
  · rw [h, h, mul_neg, sinc_neg]

example : sincValue (1 / 2) = 2 / π := by
  unfold sincValue
  rw [if_neg (by norm_num)]
  have : π * (1 / 2) = π / 2 := by ring
  rw [this, sin_pi_div_two]
  have := pi_ne_zero
  field_simp

/-- `sinc` and `i0` of an array whose elements lie one after the other. What is missing: other arrays of floats. -/
theorem C89_arrays_partial (mem : Int → ℝ) (v : View) (hw : v.WF) (hc : v.cFlag = true) :
    (rawMap sincValue mem v).Is ⟨v.shape, fun i => Real.sinc (π * (v.denote mem).get i)⟩ ∧
    (rawMap besselI0Code mem v).Is ⟨v.shape, fun i => besselI0Code ((v.denote mem).get i)⟩ := by
  have h := C84_array_partial sincValue mem v hw hc
  simp only [(C89_sinc _).1] at h
  exact ⟨h, C84_array_partial besselI0Code mem v hw hc⟩

example : (View.fresh [2, 3] 8).WF ∧ (View.fresh [2, 3] 8).cFlag = true := ⟨View.WF.fresh _ _, rfl⟩

/-- Of every second element of `[0, 1, 0]` the code gives `[1, 0]`: the second value belongs to the element it should skip. -/
theorem C89_arrays_counterexample :
    let gaps : View := ⟨0, [2], [16], 8, false, false⟩
    let mem : Int → ℝ := fun x => if x = 8 then 1 else 0
    gaps.WF ∧ (rawMap sincValue mem gaps).data = [1, 0] ∧
    (⟨[2], fun i => Real.sinc (π * (gaps.denote mem).get i)⟩ : Nd ℝ).toList = [1, 1] := by
  have h1 : sincValue 1 = 0 := by simpa using (C89_sinc 0).2.2.1 1 (by decide)
  refine ⟨⟨rfl, by decide, by decide⟩, ?_, ?_⟩
  · have r : List.range (Rumpy.sizeOf [2]) = [0, 1] := by decide
    simp [rawMap, r, h1, (C89_sinc 0).2.1]
  · have r : indices [2] = [[0], [1]] := by decide
    simp [Nd.toList, r, View.denote, View.addr, byteOffset]

end Props
