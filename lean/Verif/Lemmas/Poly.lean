import Mathlib.Algebra.Polynomial.Eval.Coeff
import Mathlib.Algebra.Polynomial.Eval.Degree
import Mathlib.Algebra.BigOperators.NatAntidiagonal
import Mathlib.Algebra.BigOperators.Intervals
import Verif.Spec.Poly
import Verif.Model.Poly
import Verif.Lemmas.Fft
import Verif.Lemmas.Select
/-!
# Lemmas: polynomials given by coefficient lists
-/

namespace Rumpy
open Spec Polynomial

theorem polyLow_coeff [Semiring K] : ∀ (l : List K) (k : Nat), (polyLow l).coeff k = l.getD k 0
  | [], k => by simp [polyLow]
  | c :: l, 0 => by simp [polyLow]
  | c :: l, k + 1 => by
    rw [polyLow, coeff_add, coeff_C_succ, zero_add, coeff_X_mul, polyLow_coeff l k]
    simp

theorem polyLow_map_range [Semiring K] (p : K[X]) {n : Nat} (h : ∀ k, n ≤ k → p.coeff k = 0) :
    polyLow ((List.range n).map p.coeff) = p := by
  ext k
  rw [polyLow_coeff]
  by_cases hk : k < n
  · rw [List.getD_eq_getElem _ _ (by simpa using hk)]; simp
  · rw [List.getD_eq_default _ _ (by simpa using hk), h k (by omega)]

theorem getD_of_le [Zero K] {l : List K} {k : Nat} (h : l.length ≤ k) : l.getD k 0 = 0 := List.getD_eq_default _ _ h

theorem coeff_mul_convAt [Semiring K] (a v : List K) (k : Nat) : (polyLow a * polyLow v).coeff k = convAt a v k := by
  rw [coeff_mul, convAt]
  refine Finset.sum_congr rfl fun p _ => ?_
  rw [polyLow_coeff, polyLow_coeff]

theorem convAt_range [Semiring K] (a v : List K) (k : Nat) :
    convAt a v k = ∑ j ∈ Finset.range (k + 1), a.getD (k - j) 0 * v.getD j 0 := by
  rw [convAt, ← Finset.Nat.sum_antidiagonal_swap]
  exact Finset.Nat.sum_antidiagonal_eq_sum_range_succ_mk (fun p => a.getD p.2 0 * v.getD p.1 0) k

theorem convAt_of_le [Semiring K] {a v : List K} {k : Nat} (h : a.length + v.length - 1 ≤ k) (ha : a ≠ []) (hv : v ≠ []) :
    convAt a v k = 0 := by
  have h1 := List.length_pos_iff.2 ha
  have h2 := List.length_pos_iff.2 hv
  rw [convAt_range]
  apply Finset.sum_eq_zero
  intro j hj
  rw [Finset.mem_range] at hj
  by_cases hm : v.length ≤ j
  · rw [getD_of_le hm, mul_zero]
  · rw [getD_of_le (l := a) (by omega), zero_mul]

theorem sum_range' [AddCommMonoid K] (f : Nat → K) (s n : Nat) :
    ((List.range' s n).map f).sum = ∑ j ∈ Finset.Ico s (s + n), f j := by
  induction n generalizing s with
  | zero => simp
  | succ n ih =>
    rw [List.range'_succ, List.map_cons, List.sum_cons, ih, ← Finset.sum_eq_sum_Ico_succ_bot (by omega : s < s + 1 + n)]
    congr 2
    omega

theorem convolveDirect_eq [Semiring K] {a v : List K} (ha : a ≠ []) (hv : v ≠ []) :
    convolveDirect a v = some ((List.range (a.length + v.length - 1)).map (convAt a v)) := by
  have h1 := List.length_pos_iff.2 ha
  have h2 := List.length_pos_iff.2 hv
  have mapM_some : ∀ {β γ : Type _} {f : β → Option γ} {g : β → γ} {l : List β}, (∀ x ∈ l, f x = some (g x)) →
      l.mapM f = some (l.map g) := by
    intro β γ f g l
    induction l with
    | nil => intro _; rfl
    | cons x l ih =>
      intro h
      rw [List.mapM_cons, h x (by simp), ih fun y hy => h y (by simp [hy])]
      rfl
  unfold convolveDirect
  dsimp only
  apply mapM_some
  intro k hk
  rw [List.mem_range] at hk
  set lo := k - (a.length - 1) with hlo
  have e : (List.range' lo (min v.length (k + 1) - lo)).mapM
      (fun j => (a[k - j]?).bind fun x => (v[j]?).map fun y => x * y)
      = some ((List.range' lo (min v.length (k + 1) - lo)).map fun j => a.getD (k - j) 0 * v.getD j 0) := by
    apply mapM_some
    intro j hj
    rw [List.mem_range'_1] at hj
    rw [List.getElem?_eq_getElem (by omega), List.getElem?_eq_getElem (by omega),
      List.getD_eq_getElem _ _ (by omega), List.getD_eq_getElem _ _ (by omega)]
    rfl
  rw [e, Option.map_some, sum_range', convAt_range, Finset.range_eq_Ico]
  congr 1
  apply Finset.sum_subset
  · intro j hj
    rw [Finset.mem_Ico] at hj ⊢
    omega
  · intro j hj hn
    rw [Finset.mem_Ico] at hj hn
    by_cases hm : v.length ≤ j
    · rw [getD_of_le hm, mul_zero]
    · rw [getD_of_le (l := a) (by omega), zero_mul]

/-! ### The Fourier path -/

theorem freq_eval [CommRing K] (w : K) (xs : List K) (k : Nat) : freq w xs k = (polyLow xs).eval (w ^ k) := by
  have key : ∀ (l : List K) (s : Nat), (∑ j ∈ Finset.range l.length, l.getD j 0 * w ^ ((j + s) * k))
      = w ^ (s * k) * (polyLow l).eval (w ^ k) := by
    intro l
    induction l with
    | nil => intro s; simp [polyLow]
    | cons c l ih =>
      intro s
      rw [List.length_cons, Finset.sum_range_succ']
      have := ih (s + 1)
      simp only [List.getD_cons_succ, List.getD_cons_zero, zero_add]
      have e : ∀ j, (j + 1 + s) * k = (j + (s + 1)) * k := fun j => by ring
      simp only [e, this, polyLow, eval_add, eval_C, eval_mul, eval_X]
      ring
  have := key xs 0
  simpa [freq] using this

theorem padTo_getD [Zero K] {l : List K} {n : Nat} (h : l.length ≤ n) (k : Nat) : (padTo 0 l n).getD k 0 = l.getD k 0 := by
  unfold padTo
  rw [List.take_of_length_le (by simp; omega)]
  by_cases hk : k < l.length
  · rw [List.getD_append _ _ _ _ hk]
  · rw [getD_of_le (by omega : l.length ≤ k)]
    rw [List.getD_append_right _ _ _ _ (by omega)]
    by_cases h2 : k - l.length < n - l.length
    · rw [List.getD_eq_getElem _ _ (by simpa using h2)]; simp
    · exact List.getD_eq_default _ _ (by simpa using h2)

theorem padTo_length [Zero K] (l : List K) (n : Nat) : (padTo 0 l n).length = n := by
  unfold padTo
  simp
  omega

theorem polyLow_congr [Semiring K] {l l' : List K} (h : ∀ k, l.getD k 0 = l'.getD k 0) : polyLow l = polyLow l' := by
  ext k
  rw [polyLow_coeff, polyLow_coeff, h]

end Rumpy
