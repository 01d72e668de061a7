import Mathlib.Tactic.Ring
import Mathlib.Tactic.Linarith
import Mathlib.Tactic.Positivity
import Verif.Model.Ufunc
import Verif.Lemmas.Elementwise
import Verif.Lemmas.FloatOps
import Verif.Lemmas.Select
import Verif.Lemmas.Cast
import Verif.Lemmas.Cumulative
/-!
# Lemmas: functions of one array
-/

namespace Rumpy
open Spec

/-- Without a panic and outside the refused cases the result holds the function of every element. -/
theorem mathDirect_ok (checked : Bool) (lib : Libm) (neg : Bool) (f : MathFn) (d : DType) (h : Held Elem) (hw : h.view.WF)
    (hc : DType.isComplex d = false ∨ (f ≠ .floor ∧ f ≠ .ceil))
    (hp : checked = true → ∀ i, InShape h.view.shape i → mathPanics f d (h.nd.get i) = false) :
    ∃ arr, mathDirect checked lib neg f d h = .ok (storedType f d, arr) ∧
      arr.Is ⟨h.view.shape, fun i => mathElem lib neg f d (h.nd.get i)⟩ := by
  have e1 : (DType.isComplex d && (decide (f = .floor) || decide (f = .ceil))) = false := by
    rcases hc with hc | ⟨h1, h2⟩
    · rw [hc]; rfl
    · simp [h1, h2]
  have e2 : (checked && h.view.addrs.any (fun a => mathPanics f d (h.mem a))) = false := by
    cases checked with
    | false => rfl
    | true =>
      rw [Bool.true_and, List.any_eq_false]
      intro a ha
      rw [addrs_eq hw] at ha
      obtain ⟨i, hi, rfl⟩ := List.mem_map.1 ha
      have := hp rfl i (mem_indices.1 hi)
      have hn : h.nd.get i = h.mem (h.view.addr i) := rfl
      rw [hn] at this
      simp [this]
  unfold mathDirect
  rw [if_neg (by rw [e1]; simp), if_neg (by rw [e2]; simp)]
  by_cases hh : handles (kernelGroup f) d = true
  · rw [if_pos hh]
    refine ⟨_, rfl, ?_⟩
    rw [mapUnary_eq _ _ hw]
    refine ⟨rfl, ?_⟩
    unfold Nd.toList mathElem
    simp only [hh, if_true]
    rfl
  · rw [if_neg hh]
    have : storedType f d = d := by unfold storedType; simp [hh]
    rw [this]
    refine ⟨_, rfl, ?_⟩
    rw [mapUnaryFallback_eq _ _ hw]
    refine ⟨rfl, ?_⟩
    unfold Nd.toList mathElem
    simp only [hh]
    rfl

/-- The whole numbers next to a float of a format are floats of the format. -/
theorem isFloat_whole {p : Nat} {lo hi : Int} {q : ℚ} (h : IsFloat p lo hi q) (hp : 0 < p) (h1 : lo ≤ 0) (h2 : 0 ≤ hi) {n : Int}
    (hn : n = ⌊q⌋ ∨ n = ⌈q⌉) : IsFloat p lo hi n := by
  obtain ⟨m, e, hm, hl, hh, rfl⟩ := h
  by_cases he : 0 ≤ e
  · obtain ⟨k, rfl⟩ := Int.eq_ofNat_of_zero_le he
    have hz : (m : ℚ) * 2 ^ ((k : Nat) : Int) = ((m * 2 ^ k : Int) : ℚ) := by rw [zpow_natCast]; push_cast; rfl
    have : (n : ℚ) = m * 2 ^ ((k : Nat) : Int) := by
      rw [hz] at hn ⊢
      rw [Int.floor_intCast, Int.ceil_intCast] at hn
      rcases hn with rfl | rfl <;> rfl
    exact ⟨m, k, hm, hl, hh, this⟩
  · push Not at he
    obtain ⟨r, rfl⟩ : ∃ r, p = r + 1 := ⟨p - 1, by omega⟩
    have hb : |(m : ℚ) * 2 ^ e| ≤ ((2 ^ r : Int) : ℚ) := by
      have e1 : (2 : ℚ) ^ e ≤ 2 ^ (-1 : Int) := two_zpow_le (by omega)
      have e2 := two_zpow_pos e
      have e3 : |(m : ℚ)| ≤ 2 ^ (r + 1) := by
        have : |m| ≤ 2 ^ (r + 1) := le_of_lt hm
        exact_mod_cast this
      rw [abs_mul, abs_of_pos e2]
      calc |(m : ℚ)| * 2 ^ e ≤ 2 ^ (r + 1) * 2 ^ (-1 : Int) := mul_le_mul e3 e1 e2.le (by positivity)
        _ = ((2 ^ r : Int) : ℚ) := by push_cast; rw [pow_succ, zpow_neg_one]; ring
    obtain ⟨b1, b2⟩ := abs_le.1 hb
    have hk : |n| ≤ 2 ^ r := by
      rw [abs_le]
      rcases hn with rfl | rfl
      · constructor
        · rw [Int.le_floor]; push_cast at b1 ⊢; linarith
        · have := Int.floor_le ((m : ℚ) * 2 ^ e)
          have h3 : ((⌊(m : ℚ) * 2 ^ e⌋ : Int) : ℚ) ≤ ((2 ^ r : Int) : ℚ) := le_trans this b2
          exact_mod_cast h3
      · constructor
        · have := Int.le_ceil ((m : ℚ) * 2 ^ e)
          have h3 : ((-(2 ^ r : Int) : Int) : ℚ) ≤ ((⌈(m : ℚ) * 2 ^ e⌉ : Int) : ℚ) := le_trans (by push_cast at b1 ⊢; linarith) this
          exact_mod_cast h3
        · rw [Int.ceil_le]; exact b2
    refine ⟨n, 0, lt_of_le_of_lt hk ?_, h1, h2, by simp⟩
    rw [pow_succ]
    have : (0 : Int) < 2 ^ r := by positivity
    omega

end Rumpy
