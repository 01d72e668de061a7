import Mathlib.Analysis.SpecialFunctions.Pow.Complex
import Mathlib.Analysis.SpecialFunctions.Trigonometric.Complex
import Verif.Model.Complex
import Verif.Lemmas.Complex
import Verif.Lemmas.Cast
import Verif.Lemmas.Elementwise
import Verif.Lemmas.Cumulative
/-!
# C85: complex numbers
-/

namespace Props
open Spec Rumpy

/-- C85.  The square root squared is the number, and it lies in the right half-plane; on the cut the sign of the zero
chooses the side. -/
theorem C85_sqrt (neg : Bool) (z : ℂ) (hs : SignBit neg z.im) :
    IsSqrt z (numpySqrt neg z) ∧ (neg = true → (numpySqrt neg z).im ≤ 0) ∧ (neg = false → 0 ≤ (numpySqrt neg z).im) := by
  unfold numpySqrt
  split
  · next h =>
    refine ⟨⟨?_, le_refl _⟩, fun _ => h.2.le, fun _ => h.2.ge⟩
    apply Complex.ext
    · simp [h.1, h.2]
    · simp [h.2]
  · dsimp only
    have hsq : 0 ≤ z.re * z.re + z.im * z.im := add_nonneg (mul_self_nonneg _) (mul_self_nonneg _)
    have hmag := Real.mul_self_sqrt hsq
    have hmn := Real.sqrt_nonneg (z.re * z.re + z.im * z.im)
    generalize √(z.re * z.re + z.im * z.im) = m at *
    have h1 : 0 ≤ (m + z.re) / 2 := by nlinarith [mul_self_nonneg z.im]
    have h2 : 0 ≤ (m - z.re) / 2 := by nlinarith [mul_self_nonneg z.im]
    have hr := Real.mul_self_sqrt h1
    have hi := Real.mul_self_sqrt h2
    have hri : √((m + z.re) / 2) * √((m - z.re) / 2) = |z.im| / 2 := by
      rw [← Real.sqrt_mul h1]
      have : (m + z.re) / 2 * ((m - z.re) / 2) = (|z.im| / 2) * (|z.im| / 2) := by
        have : |z.im| * |z.im| = z.im * z.im := abs_mul_abs_self _
        nlinarith
      rw [this, Real.sqrt_mul_self (by positivity)]
    have hrn := Real.sqrt_nonneg ((m + z.re) / 2)
    have hin := Real.sqrt_nonneg ((m - z.re) / 2)
    generalize √((m + z.re) / 2) = r at *
    generalize √((m - z.re) / 2) = i at *
    cases neg with
    | true =>
      have him : z.im ≤ 0 := by
        by_contra h
        exact absurd (hs.2 (not_le.mp h)) (by decide)
      rw [abs_of_nonpos him] at hri
      refine ⟨⟨?_, hrn⟩, fun _ => neg_nonpos.mpr hin, fun h => absurd h (by decide)⟩
      apply Complex.ext
      · simp; linarith
      · simp; linarith
    | false =>
      have him : 0 ≤ z.im := by
        by_contra h
        exact absurd (hs.1 (not_le.mp h)) (by decide)
      rw [abs_of_nonneg him] at hri
      refine ⟨⟨?_, hrn⟩, fun h => absurd h (by decide), fun _ => hin⟩
      apply Complex.ext
      · simp; linarith
      · simp; linarith

/-- Both sides of the cut: the two roots of -4. -/
example : SignBit true (-4 : ℂ).im ∧ SignBit false (-4 : ℂ).im := by
  constructor <;> constructor <;> intro h <;> simp at h

/-- C85.  The inverse sine of every complex number, cuts included. -/
theorem C85_arcsin (neg : Bool) (z : ℂ) (hs : SignBit neg (-(2 * z.re * z.im))) : IsArcsin z (arcsinKernel neg z) := by
  obtain ⟨⟨hss, hsr⟩, -, -⟩ := C85_sqrt neg ⟨1 - (z.re * z.re - z.im * z.im), -(2 * z.re * z.im)⟩ hs
  unfold arcsinKernel
  dsimp only
  generalize numpySqrt neg ⟨1 - (z.re * z.re - z.im * z.im), -(2 * z.re * z.im)⟩ = s at *
  have hiz : (⟨-z.im, z.re⟩ : ℂ) = Complex.I * z := by apply Complex.ext <;> simp
  have hs2 : s * s = 1 - z * z := by
    rw [hss]
    apply Complex.ext
    · simp
    · simp; ring
  rw [hiz]
  have hwv : (Complex.I * z + s) * (s - Complex.I * z) = 1 := by
    linear_combination hs2 - z * z * Complex.I_mul_I
  have hre : 0 ≤ (Complex.I * z + s).re := by
    apply re_nonneg_of_mul hwv
    have : (Complex.I * z + s) + (s - Complex.I * z) = s + s := by ring
    rw [this, Complex.add_re]
    linarith
  obtain ⟨e1, e2⟩ := exp_log_inv hwv
  constructor
  · unfold Complex.sin
    have h1 : -(-Complex.I * Complex.log (Complex.I * z + s)) * Complex.I = -Complex.log (Complex.I * z + s) := by
      linear_combination Complex.log (Complex.I * z + s) * Complex.I_mul_I
    have h2 : -Complex.I * Complex.log (Complex.I * z + s) * Complex.I = Complex.log (Complex.I * z + s) := by
      linear_combination -Complex.log (Complex.I * z + s) * Complex.I_mul_I
    rw [h1, h2, e1, e2]
    linear_combination -z * Complex.I_mul_I
  · have : (-Complex.I * Complex.log (Complex.I * z + s)).re = Complex.arg (Complex.I * z + s) := by
      simp [Complex.log_im]
    rw [this]
    exact Complex.abs_arg_le_pi_div_two_iff.mpr hre

/-- The hypothesis holds for 2, on the cut, with the sign the code computes (and with the other). -/
example : SignBit true (-(2 * (2 : ℂ).re * (2 : ℂ).im)) := by constructor <;> intro h <;> simp at h

/-- C85.  The inverse cosine of every complex number. -/
theorem C85_arccos (neg : Bool) (z : ℂ) (hs : SignBit neg (-(2 * z.re * z.im))) : IsArccos z (arccosKernel neg z) := by
  obtain ⟨h1, h2⟩ := C85_arcsin neg z hs
  have hpi : (⟨Real.pi / 2, 0⟩ : ℂ) = (Real.pi / 2 : ℂ) := by
    apply Complex.ext
    · have : (Real.pi / 2 : ℂ) = ((Real.pi / 2 : ℝ) : ℂ) := by push_cast; rfl
      rw [this]; simp
    · have : (Real.pi / 2 : ℂ) = ((Real.pi / 2 : ℝ) : ℂ) := by push_cast; rfl
      rw [this]; simp
  unfold arccosKernel
  obtain ⟨h3, h4⟩ := abs_le.mp h2
  refine ⟨?_, ?_, ?_⟩
  · rw [hpi, Complex.cos_pi_div_two_sub, h1]
  · rw [Complex.sub_re]; show 0 ≤ Real.pi / 2 - _; linarith
  · rw [Complex.sub_re]; show Real.pi / 2 - _ ≤ Real.pi; linarith

/-- C85.  The inverse hyperbolic sine of every complex number. -/
theorem C85_arcsinh (neg : Bool) (z : ℂ) (hs : SignBit neg (z * z + ⟨1, 0⟩).im) : IsArcsinh z (arcsinhKernel neg z) := by
  obtain ⟨⟨hss, hsr⟩, -, -⟩ := C85_sqrt neg (z * z + ⟨1, 0⟩) hs
  unfold arcsinhKernel
  dsimp only
  have hone : (⟨1, 0⟩ : ℂ) = 1 := by apply Complex.ext <;> simp
  rw [hone] at hss hsr ⊢
  generalize numpySqrt neg (z * z + 1) = s at *
  have hwv : (z + s) * (s - z) = 1 := by linear_combination hss
  have hre : 0 ≤ (z + s).re := by
    apply re_nonneg_of_mul hwv
    have : (z + s) + (s - z) = s + s := by ring
    rw [this, Complex.add_re]
    linarith
  obtain ⟨e1, e2⟩ := exp_log_inv hwv
  constructor
  · unfold Complex.sinh
    rw [e1, e2]
    ring
  · rw [Complex.log_im]
    exact Complex.abs_arg_le_pi_div_two_iff.mpr hre

example : SignBit false ((3 : ℂ) * 3 + ⟨1, 0⟩).im := by constructor <;> intro h <;> simp at h

theorem arccosh_parts (neg : Bool) (z : ℂ) (hs : SignBit neg (z * z - ⟨1, 0⟩).im) :
    ∃ s : ℂ, s * s = z * z - 1 ∧ 0 ≤ s.re ∧ (z + s) * (z - s) = 1 ∧ arccoshKernel neg z = Complex.log (z + s) := by
  obtain ⟨⟨hss, hsr⟩, -, -⟩ := C85_sqrt neg (z * z - ⟨1, 0⟩) hs
  have hone : (⟨1, 0⟩ : ℂ) = 1 := by apply Complex.ext <;> simp
  have hk : arccoshKernel neg z = Complex.log (z + numpySqrt neg (z * z - ⟨1, 0⟩)) := rfl
  generalize numpySqrt neg (z * z - ⟨1, 0⟩) = s at *
  rw [hone] at hss
  exact ⟨s, hss, hsr, by linear_combination -hss, hk⟩

/-- C85.  The inverse hyperbolic cosine of a number with positive real part.  With a negative real part the result has
the right hyperbolic cosine but the wrong sign. -/
theorem C85_arccosh_partial (neg : Bool) (z : ℂ) (hz : 0 < z.re) (hs : SignBit neg (z * z - ⟨1, 0⟩).im) :
    IsArccosh z (arccoshKernel neg z) := by
  obtain ⟨s, hss, hsr, hwv, hk⟩ := arccosh_parts neg z hs
  rw [hk]
  obtain ⟨e1, e2⟩ := exp_log_inv hwv
  refine ⟨?_, ?_, ?_⟩
  · unfold Complex.cosh
    rw [e1, e2]
    ring
  · rw [Complex.log_re]
    apply Real.log_nonneg
    -- the product of the moduli is one, and the first is at least the second
    have hmul : ‖z + s‖ * ‖z - s‖ = 1 := by rw [← norm_mul, hwv, norm_one]
    have him : z.re * z.im = s.re * s.im := by
      have := congrArg Complex.im hss
      simp at this
      linarith
    have hge : ‖z - s‖ * ‖z - s‖ ≤ ‖z + s‖ * ‖z + s‖ := by
      have a1 := Complex.normSq_eq_norm_sq (z - s)
      have a2 := Complex.normSq_eq_norm_sq (z + s)
      rw [Complex.normSq_apply] at a1 a2
      simp only [Complex.sub_re, Complex.sub_im, Complex.add_re, Complex.add_im] at a1 a2
      have hb : 0 ≤ z.im * s.im := by
        rcases eq_or_lt_of_le hsr with h0 | h0
        · rw [← h0, zero_mul] at him
          have : z.im = 0 := by
            rcases mul_eq_zero.mp him with h | h
            · exact absurd h hz.ne'
            · exact h
          rw [this, zero_mul]
        · have : 0 ≤ (z.im * s.im) * s.re := by
            have : (z.im * s.im) * s.re = z.im * z.im * z.re := by linear_combination -z.im * him
            rw [this]
            exact mul_nonneg (mul_self_nonneg _) hz.le
          exact nonneg_of_mul_nonneg_left this h0
      have := mul_nonneg hz.le hsr
      nlinarith
    have hn1 := norm_nonneg (z + s)
    have hn2 := norm_nonneg (z - s)
    by_contra hlt
    have hlt := not_le.mp hlt
    have : 1 < ‖z - s‖ := by
      by_contra h
      have h := not_lt.mp h
      nlinarith
    nlinarith
  · rw [Complex.log_im]
    exact Complex.abs_arg_le_pi _

example : SignBit false ((3 : ℂ) * 3 - ⟨1, 0⟩).im ∧ 0 < (3 : ℂ).re := by
  refine ⟨?_, by norm_num⟩
  constructor <;> intro h <;> simp at h

/-- The inverse hyperbolic cosine of -2: the real part of the result is negative. -/
theorem C85_arccosh_counterexample : (∀ neg, SignBit neg ((-2 : ℂ) * (-2) - ⟨1, 0⟩).im) ∧
    ∀ neg, (arccoshKernel neg (-2)).re < 0 ∧ ¬IsArccosh (-2) (arccoshKernel neg (-2)) := by
  have hsb : ∀ neg, SignBit neg ((-2 : ℂ) * (-2) - ⟨1, 0⟩).im := by
    intro neg
    constructor <;> intro h <;> simp at h
  refine ⟨hsb, fun neg => ?_⟩
  suffices h : (arccoshKernel neg (-2)).re < 0 from ⟨h, fun h' => absurd h'.2.1 (not_le.mpr h)⟩
  obtain ⟨s, hss, hsr, hwv, hk⟩ := arccosh_parts neg (-2) (hsb neg)
  rw [hk, Complex.log_re]
  have hre := congrArg Complex.re hss
  have him := congrArg Complex.im hss
  simp at hre him
  have hsi : s.im = 0 := by
    have him' : s.re * s.im = 0 := by linarith
    rcases mul_eq_zero.mp him' with h | h
    · exfalso
      rw [h] at hre
      nlinarith [mul_self_nonneg s.im]
    · exact h
  rw [hsi] at hre
  have hs3 : s.re * s.re = 3 := by linarith
  have hb1 : 1 < s.re := by nlinarith
  have hb2 : s.re < 2 := by nlinarith
  have hn : ‖(-2 : ℂ) + s‖ = 2 - s.re := by
    have : (-2 : ℂ) + s = ((s.re - 2 : ℝ) : ℂ) := by
      apply Complex.ext
      · simp; ring
      · simp [hsi]
    rw [this, Complex.norm_real, Real.norm_eq_abs, abs_of_neg (by linarith)]
    ring
  rw [hn]
  exact Real.log_neg (by linarith) (by linarith)

/-- C85.  The inverse hyperbolic tangent of every number but 1 and -1. -/
theorem C85_arctanh (z : ℂ) (h1 : z ≠ 1) (h2 : z ≠ -1) : IsArctanh z (arctanhKernel z) := by
  have hd : 1 - z ≠ 0 := sub_ne_zero.mpr h1.symm
  have hn : 1 + z ≠ 0 := by
    intro h
    exact h2 (by linear_combination h)
  -- the two real formulas are a complex division
  have hratio : (⟨((1 + z.re) * (1 - z.re) + z.im * (-z.im)) / ((1 - z.re) * (1 - z.re) + (-z.im) * (-z.im)),
      (z.im * (1 - z.re) - (1 + z.re) * (-z.im)) / ((1 - z.re) * (1 - z.re) + (-z.im) * (-z.im))⟩ : ℂ) = (1 + z) / (1 - z) := by
    apply Complex.ext
    · rw [Complex.div_re, Complex.normSq_apply]
      simp only [Complex.add_re, Complex.one_re, Complex.sub_re, Complex.add_im, Complex.one_im, Complex.sub_im, zero_add, zero_sub]
      rw [← add_div]
    · rw [Complex.div_im, Complex.normSq_apply]
      simp only [Complex.add_re, Complex.one_re, Complex.sub_re, Complex.add_im, Complex.one_im, Complex.sub_im, zero_add, zero_sub]
      rw [← sub_div]
  have hkey : arctanhKernel z = Complex.log ((1 + z) / (1 - z)) / 2 := by
    unfold arctanhKernel
    dsimp only
    have hl : (if ((1 + z.re) * (1 - z.re) + z.im * -z.im) / ((1 - z.re) * (1 - z.re) + -z.im * -z.im) < 0 ∧
        (z.im * (1 - z.re) - (1 + z.re) * -z.im) / ((1 - z.re) * (1 - z.re) + -z.im * -z.im) = 0 then
        (⟨Real.log (-(((1 + z.re) * (1 - z.re) + z.im * -z.im) / ((1 - z.re) * (1 - z.re) + -z.im * -z.im))), Real.pi⟩ : ℂ)
        else Complex.log ⟨((1 + z.re) * (1 - z.re) + z.im * -z.im) / ((1 - z.re) * (1 - z.re) + -z.im * -z.im),
          (z.im * (1 - z.re) - (1 + z.re) * -z.im) / ((1 - z.re) * (1 - z.re) + -z.im * -z.im)⟩) = Complex.log ((1 + z) / (1 - z)) := by
      rw [← hratio]
      generalize ((1 + z.re) * (1 - z.re) + z.im * -z.im) / ((1 - z.re) * (1 - z.re) + -z.im * -z.im) = a
      generalize (z.im * (1 - z.re) - (1 + z.re) * -z.im) / ((1 - z.re) * (1 - z.re) + -z.im * -z.im) = b
      split
      · next h =>
        obtain ⟨ha, rfl⟩ := h
        have : (⟨a, 0⟩ : ℂ) = (a : ℂ) := by apply Complex.ext <;> simp
        rw [this]
        apply Complex.ext
        · rw [Complex.log_re, Complex.norm_real, Real.norm_eq_abs, abs_of_neg ha]
        · rw [Complex.log_im, Complex.arg_ofReal_of_neg ha]
      · rfl
    rw [hl]
    apply Complex.ext
    · simp; ring
    · simp; ring
  rw [hkey]
  generalize hL : Complex.log ((1 + z) / (1 - z)) = L
  have hexp : Complex.exp L = (1 + z) / (1 - z) := by rw [← hL, Complex.exp_log (div_ne_zero hn hd)]
  constructor
  · have hE : Complex.exp (L / 2) * Complex.exp (L / 2) = (1 + z) / (1 - z) := by
      rw [← Complex.exp_add, add_halves, hexp]
    have hE0 : Complex.exp (L / 2) ≠ 0 := Complex.exp_ne_zero _
    rw [Complex.tanh_eq_sinh_div_cosh]
    unfold Complex.sinh Complex.cosh
    rw [Complex.exp_neg]
    generalize Complex.exp (L / 2) = E at *
    have hE2 : E * E * (1 - z) = 1 + z := by rw [hE]; field_simp
    have hsum : E + E⁻¹ ≠ 0 := by
      intro h
      have h3 : E * E + 1 = 0 := by
        have := congrArg (· * E) h
        simp only [add_mul, inv_mul_cancel₀ hE0, zero_mul] at this
        exact this
      have : (2 : ℂ) = 0 := by linear_combination -hE2 + h3 * (1 - z)
      exact absurd this two_ne_zero
    rw [div_div_div_cancel_right₀ two_ne_zero, div_eq_iff hsum]
    field_simp
    linear_combination hE2
  · have : (L / 2).im = L.im / 2 := by simp
    rw [this, ← hL, Complex.log_im, abs_div, abs_of_pos (by norm_num : (0 : ℝ) < 2)]
    have := Complex.abs_arg_le_pi ((1 + z) / (1 - z))
    linarith

example : (2 : ℂ) ≠ 1 ∧ (2 : ℂ) ≠ -1 := by constructor <;> norm_num

/-- C85.  The sign: a number of modulus one in the direction of `z`. -/
theorem C85_sign (z : ℂ) : signKernel 0 = 0 ∧ (z ≠ 0 → ‖signKernel z‖ = 1 ∧ z = ‖z‖ * signKernel z) := by
  unfold signKernel
  refine ⟨by simp, fun hz => ?_⟩
  have h : ‖z‖ ≠ 0 := norm_ne_zero_iff.mpr hz
  have hc : (‖z‖ : ℂ) ≠ 0 := by exact_mod_cast h
  rw [if_neg h]
  constructor
  · rw [norm_div, Complex.norm_real, norm_norm, div_self h]
  · field_simp

/-- C85.  Powers of two. -/
theorem C85_exp2 (z : ℂ) : exp2Kernel z = (2 : ℂ) ^ z := by
  unfold exp2Kernel
  rw [Complex.cpow_def_of_ne_zero two_ne_zero]
  have : Complex.log 2 = ((Real.log 2 : ℝ) : ℂ) := by
    have := Complex.ofReal_log (by norm_num : (0 : ℝ) ≤ 2)
    rw [this]
    norm_num
  rw [this, mul_comm]

/-- C85.  Products, quotients and powers of operands of two dtypes are those of complex numbers. -/
theorem C85_mixed_partial (a b : ℂ) :
    mixedMul a b = a * b ∧ (b ≠ 0 → mixedDiv a b = some (a / b)) ∧
    (a ≠ 0 ∨ 0 < b.re → mixedPow a b = some (a ^ b)) := by
  refine ⟨by apply Complex.ext <;> simp [mixedMul], ?_, ?_⟩
  · intro hb
    have hd : b.re * b.re + b.im * b.im ≠ 0 := by
      rw [← Complex.normSq_apply]
      exact (Complex.normSq_pos.mpr hb).ne'
    unfold mixedDiv
    dsimp only
    rw [if_pos hd]
    congr 1
    apply Complex.ext
    · rw [Complex.div_re, Complex.normSq_apply, ← add_div]
    · rw [Complex.div_im, Complex.normSq_apply, ← sub_div]
  · intro h
    unfold mixedPow
    split
    · next h0 =>
      have ha : a = 0 := by apply Complex.ext <;> simp [h0]
      have hb : 0 < b.re := by
        rcases h with h | h
        · exact absurd ha h
        · exact h
      have hb0 : b ≠ 0 := by rintro rfl; simp at hb
      rw [if_pos hb, ha, Complex.zero_cpow hb0]
      congr 1
    · next h0 =>
      have ha : a ≠ 0 := by
        rintro rfl
        exact h0 ⟨rfl, rfl⟩
      dsimp only
      rw [Complex.cpow_def_of_ne_zero ha]
      congr 1
      have hm : √(a.re * a.re + a.im * a.im) = ‖a‖ := by
        rw [← Complex.normSq_apply, Complex.normSq_eq_norm_sq, Real.sqrt_sq (norm_nonneg a)]
      have heta : (⟨a.re, a.im⟩ : ℂ) = a := rfl
      rw [hm, heta]
      apply Complex.ext
      · rw [Complex.exp_re]
        simp only [Complex.mul_re, Complex.mul_im, Complex.log_re, Complex.log_im]
        congr 2 <;> ring
      · rw [Complex.exp_im]
        simp only [Complex.mul_re, Complex.mul_im, Complex.log_re, Complex.log_im]
        congr 2 <;> ring

example : (2 : ℂ) ≠ 0 ∨ 0 < (0 : ℂ).re := Or.inl two_ne_zero

/-- Zero to the power zero is 1 in NumPy, and NaN here. -/
theorem C85_pow_counterexample : mixedPow 0 0 = none ∧ (0 : ℂ) ^ (0 : ℂ) = 1 := by
  refine ⟨?_, Complex.cpow_zero 0⟩
  unfold mixedPow
  rw [if_pos ⟨rfl, rfl⟩, if_neg (by simp)]

/-- The modulus of a complex array comes back as a complex array in the code; its values are right. -/
theorem C85_abs (z : ℂ) : (absKernel z).re = ‖z‖ ∧ (absKernel z).im = 0 := ⟨rfl, rfl⟩

section order
variable {K : Type} [LinearOrder K]

/-- C85.  `maximum`, `minimum`, `fmax` and `fmin` of complex numbers: the larger or smaller in NumPy's order; a NaN in
either part makes `maximum` and `minimum` NaN and is passed over by `fmax` and `fmin`. -/
theorem C85_extrema (a b : K × K) (n m : CF K) (hn : n.1 = none ∨ n.2 = none) (hm : m.1 = none ∨ m.2 = none) :
    maximumC (whole a) (whole b) = whole (lexMax a b) ∧ minimumC (whole a) (whole b) = whole (lexMin a b) ∧
    fmaxC (whole a) (whole b) = whole (lexMax a b) ∧ fminC (whole a) (whole b) = whole (lexMin a b) ∧
    (maximumC n m = (none, none) ∧ maximumC n (whole b) = (none, none) ∧ maximumC (whole a) m = (none, none)) ∧
    (minimumC n m = (none, none) ∧ minimumC n (whole b) = (none, none) ∧ minimumC (whole a) m = (none, none)) ∧
    (fmaxC n m = (none, none) ∧ fmaxC n (whole b) = whole b ∧ fmaxC (whole a) m = whole a) ∧
    (fminC n m = (none, none) ∧ fminC n (whole b) = whole b ∧ fminC (whole a) m = whole a) := by
  have w : ∀ x : K × K, cNan (whole x) = false := fun _ => rfl
  have hn' : cNan n = true := by rcases hn with h | h <;> simp [cNan, h]
  have hm' : cNan m = true := by rcases hm with h | h <;> simp [cNan, h]
  simp only [maximumC, minimumC, fmaxC, fminC, w, hn', hm', Bool.or_false, Bool.or_true, Bool.and_false, Bool.and_true, Bool.false_eq_true,
    if_false, if_true, pick_max, pick_min, and_self]

end order

example : lexMax ((1, 5) : Int × Int) (1, 7) = (1, 7) ∧ maximumC (whole ((1, 5) : Int × Int)) (whole (1, 7)) = whole (1, 7) := by decide

/-- Sorting goes by magnitude: 1 comes before -2, and `i` is not before 1 or after it.  NumPy's order is by real part, then
imaginary part.  The maximum of an array is always the initial value, minus infinity; the minimum is that of smallest
magnitude. -/
theorem C85_order_counterexample :
    (lessByMagnitude (1, 0) (-2, 0) = true ∧ toLex ((-2 : ℚ), (0 : ℚ)) < toLex (1, 0)) ∧
    (lessByMagnitude (0, 1) (1, 0) = false ∧ lessByMagnitude (1, 0) (0, 1) = false) ∧
    (∀ vs, maxReduceC vs = none) ∧
    (minReduceC [(1, 0), (-2, 0)] = some (1, 0) ∧ lexMin ((1 : ℚ), (0 : ℚ)) (-2, 0) = (-2, 0)) := by
  refine ⟨⟨by decide +kernel, by decide +kernel⟩, ⟨by decide +kernel, by decide +kernel⟩, ?_, by decide +kernel, by decide +kernel⟩
  intro vs
  unfold maxReduceC
  induction vs with
  | nil => rfl
  | cons v vs ih => exact ih

/-- C85.  `nan_to_num` keeps every finite number and replaces NaN and the infinities, by default by the largest numbers of
the format. -/
theorem C85_nan_to_num (p : Nat) (lo hi : Int) (big : ℚ) (nan : Flt ℚ) (posinf neginf : Option (Flt ℚ)) (v : Flt ℚ) :
    IsCleaned v (toFormat p lo hi nan) ((posinf.map (toFormat p lo hi)).getD (.num big))
      ((neginf.map (toFormat p lo hi)).getD (.num (-big))) (cleanValue (toFormat p lo hi) big nan posinf neginf v) := by
  cases v with
  | nan => rfl
  | num q => rfl
  | posInf => cases posinf <;> rfl
  | negInf => cases neginf <;> rfl

/-- The default is the largest number of the format, and so every default result is a finite number of the format. -/
theorem C85_nan_to_num_default (p : Nat) (lo hi : Int) (hp : 0 < p) (hlh : lo ≤ hi) (v : Flt ℚ)
    (hv : ∀ q, v = .num q → IsFloat p lo hi q) :
    IsLargest p lo hi (((2 ^ p - 1 : Int) : ℚ) * 2 ^ hi) ∧
    ∃ y, cleanValue (toFormat p lo hi) (((2 ^ p - 1 : Int) : ℚ) * 2 ^ hi) (.num 0) none none v = .num y ∧ IsFloat p lo hi y := by
  have h1 : (1 : Int) < 2 ^ p := one_lt_pow₀ (by norm_num) (by omega)
  have hbig : IsFloat p lo hi (((2 ^ p - 1 : Int) : ℚ) * 2 ^ hi) :=
    ⟨2 ^ p - 1, hi, by rw [abs_of_nonneg (by omega)]; omega, hlh, le_refl _, rfl⟩
  refine ⟨⟨hbig, ?_⟩, ?_⟩
  · rintro t ⟨m, e, hm, -, he, rfl⟩
    have hm' : m ≤ 2 ^ p - 1 := by have := abs_lt.mp hm; omega
    calc (m : ℚ) * 2 ^ e ≤ ((2 ^ p - 1 : Int) : ℚ) * 2 ^ e :=
          mul_le_mul_of_nonneg_right (by exact_mod_cast hm') (two_zpow_pos e).le
      _ ≤ ((2 ^ p - 1 : Int) : ℚ) * 2 ^ hi := by
          apply mul_le_mul_of_nonneg_left (two_zpow_le he)
          have : (0 : Int) ≤ 2 ^ p - 1 := by omega
          exact_mod_cast this
  · have hz : IsFloat p lo hi 0 := ⟨0, lo, by rw [abs_zero]; positivity, le_refl _, hlh, by simp⟩
    cases v with
    | nan =>
      refine ⟨0, ?_, hz⟩
      show toFormat p lo hi (.num 0) = .num 0
      exact roundBin_exact hz
    | num q => exact ⟨q, rfl, hv q rfl⟩
    | posInf => exact ⟨_, rfl, hbig⟩
    | negInf =>
      refine ⟨_, rfl, ?_⟩
      obtain ⟨m, e, hm, h2, h3, hx⟩ := hbig
      exact ⟨-m, e, by rwa [abs_neg], h2, h3, by rw [hx]; push_cast; ring⟩

/-- Infinity as `float32`. -/
example : cleanValue (toFormat 24 (-149) 104) (((2 ^ 24 - 1 : Int) : ℚ) * 2 ^ (104 : Int)) (.num 0) none none .posInf =
    .num (340282346638528859811704183484516925440 : ℚ) := by
  decide +kernel

/-- C85.  `real`, `imag` and `conj` of any view: element by element. -/
theorem C85_parts {α γ : Type} [Neg γ] (parts : α → γ × γ) (keep : α → γ) (mem : Int → α) (memC : Int → γ × γ) (v : View) (hw : v.WF) (zero : γ) :
    (realPart true parts keep mem v zero).Is ⟨v.shape, fun i => (parts ((v.denote mem).get i)).1⟩ ∧
    (realPart false parts keep mem v zero).Is ⟨v.shape, fun i => keep ((v.denote mem).get i)⟩ ∧
    (imagPart true parts mem v zero).Is ⟨v.shape, fun i => (parts ((v.denote mem).get i)).2⟩ ∧
    (imagPart false parts mem v zero).Is ⟨v.shape, fun _ => zero⟩ ∧
    (conjugate memC v zero).Is ⟨v.shape, fun i => (((v.denote memC).get i).1, -((v.denote memC).get i).2)⟩ := by
  refine ⟨?_, ?_, ?_, ?_, ?_⟩
  · simp only [Rumpy.realPart, imagPart, if_true, Bool.false_eq_true, if_false]
    rw [mapUnaryFallback_eq _ mem hw zero]
    exact ⟨rfl, rfl⟩
  · simp only [Rumpy.realPart, imagPart, if_true, Bool.false_eq_true, if_false]
    rw [mapUnaryFallback_eq _ mem hw zero]
    exact ⟨rfl, rfl⟩
  · simp only [Rumpy.realPart, imagPart, if_true, Bool.false_eq_true, if_false]
    rw [mapUnaryFallback_eq _ mem hw zero]
    exact ⟨rfl, rfl⟩
  · refine ⟨rfl, ?_⟩
    show List.replicate (Rumpy.sizeOf v.shape) zero = (indices v.shape).map fun _ => zero
    rw [List.map_const', length_indices, sizeOf_eq]
  · unfold conjugate
    rw [mapUnaryFallback_eq _ memC hw (zero, zero)]
    exact ⟨rfl, rfl⟩

example : (conjugate (fun p => ((p : Int), p + 1)) ⟨0, [2], [32], 16, false, false⟩ 0).data = [(0, -1), (32, -33)] := by decide +kernel

end Props
