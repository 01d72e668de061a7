import Mathlib.Analysis.SpecialFunctions.Complex.Log
import Mathlib.Tactic.Linarith
import Verif.Spec.Complex
import Verif.Model.Complex
/-!
# Lemmas about complex numbers
-/

namespace Rumpy
open Spec

/-- A number and its inverse have real parts of one sign. -/
theorem re_nonneg_of_mul {w v : ℂ} (h : w * v = 1) (hr : 0 ≤ (w + v).re) : 0 ≤ w.re := by
  have hw : w ≠ 0 := by rintro rfl; simp at h
  have hv : v = w⁻¹ := eq_inv_of_mul_eq_one_right h
  rw [hv, Complex.add_re, Complex.inv_re] at hr
  have hp : 0 < Complex.normSq w := Complex.normSq_pos.mpr hw
  by_contra hneg
  have hneg := not_le.mp hneg
  have : w.re / Complex.normSq w < 0 := div_neg_of_neg_of_pos hneg hp
  linarith

theorem exp_log_inv {w v : ℂ} (h : w * v = 1) : Complex.exp (Complex.log w) = w ∧ Complex.exp (-Complex.log w) = v := by
  have hw : w ≠ 0 := by rintro rfl; simp at h
  refine ⟨Complex.exp_log hw, ?_⟩
  rw [Complex.exp_neg, Complex.exp_log hw]
  exact (eq_inv_of_mul_eq_one_right h).symm

section order
variable {K : Type} [LinearOrder K]

theorem notLess_iff (a b : K × K) : notLess (whole a) (whole b) = true ↔ toLex b ≤ toLex a := by
  rw [Prod.Lex.toLex_le_toLex]
  simp only [notLess, whole, gtF, eqF, geF, Bool.or_eq_true, Bool.and_eq_true, decide_eq_true_eq]
  constructor
  · rintro (h | ⟨h1, h2⟩)
    · exact Or.inl h
    · exact Or.inr ⟨h1.symm, h2⟩
  · rintro (h | ⟨h1, h2⟩)
    · exact Or.inl h
    · exact Or.inr ⟨h1.symm, h2⟩

theorem notGreater_iff (a b : K × K) : notGreater (whole a) (whole b) = true ↔ toLex a ≤ toLex b := by
  rw [Prod.Lex.toLex_le_toLex]
  simp only [notGreater, whole, gtF, eqF, geF, Bool.or_eq_true, Bool.and_eq_true, decide_eq_true_eq]

theorem pick_max (a b : K × K) : (if notLess (whole a) (whole b) = true then whole a else whole b) = whole (lexMax a b) := by
  by_cases h : notLess (whole a) (whole b) = true
  · rw [if_pos h]
    unfold lexMax
    rw [max_eq_left ((notLess_iff a b).mp h)]
    rfl
  · rw [if_neg h]
    unfold lexMax
    rw [max_eq_right (le_of_not_ge fun h' => h ((notLess_iff a b).mpr h'))]
    rfl

theorem pick_min (a b : K × K) : (if notGreater (whole a) (whole b) = true then whole a else whole b) = whole (lexMin a b) := by
  by_cases h : notGreater (whole a) (whole b) = true
  · rw [if_pos h]
    unfold lexMin
    rw [min_eq_left ((notGreater_iff a b).mp h)]
    rfl
  · rw [if_neg h]
    unfold lexMin
    rw [min_eq_right (le_of_not_ge fun h' => h ((notGreater_iff a b).mpr h'))]
    rfl

end order

end Rumpy
