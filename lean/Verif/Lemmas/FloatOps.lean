import Mathlib.Tactic.Ring
import Mathlib.Tactic.Linarith
import Mathlib.Tactic.FieldSimp
import Mathlib.Data.Rat.Floor
import Verif.Model.FloatOps
import Verif.Spec.FloatOps
import Verif.Lemmas.Cast
import Verif.Lemmas.Special
import Verif.Lemmas.Compare
/-!
# Lemmas about operations on floats
-/

namespace Rumpy
open Spec

/-! ### The order of patterns -/

/-- The pattern of infinity. -/
def infPattern (F : BinFormat) : Nat := (2 ^ F.e - 1) * 2 ^ F.f

theorem infPattern_lt (F : BinFormat) : infPattern F < 2 ^ (F.e + F.f) := by
  unfold infPattern
  have h1 : 0 < 2 ^ F.e := Nat.two_pow_pos _
  have h2 : 0 < 2 ^ F.f := Nat.two_pow_pos _
  rw [pow_add]
  exact Nat.mul_lt_mul_of_pos_right (by omega) h2

theorem infPattern_pos (F : BinFormat) (hF : F.Wide) : 0 < infPattern F := by
  unfold infPattern
  have h1 : 2 ^ 3 ≤ 2 ^ F.e := Nat.pow_le_pow_right (by norm_num) hF.1
  have h2 : 0 < 2 ^ F.f := Nat.two_pow_pos _
  exact Nat.mul_pos (by omega) h2

theorem quot_lt_iff (F : BinFormat) {n : Nat} (hn : n < 2 ^ (F.e + F.f)) : n / 2 ^ F.f ≠ 2 ^ F.e - 1 ↔ n < infPattern F := by
  have h2 : 0 < 2 ^ F.f := Nat.two_pow_pos _
  have h3 : n / 2 ^ F.f < 2 ^ F.e := by rw [Nat.div_lt_iff_lt_mul h2, ← pow_add]; exact hn
  unfold infPattern
  rw [← Nat.div_lt_iff_lt_mul h2]
  generalize n / 2 ^ F.f = t at *
  generalize 2 ^ F.e = P at *
  omega

/-- The value of a pattern by its sign and the rest. -/
theorem value_cases (F : BinFormat) {s n : Nat} (hn : n < 2 ^ (F.e + F.f)) :
    F.value (s * 2 ^ (F.e + F.f) + n) =
      if n < infPattern F then .num ((if s = 0 then 1 else -1) * mag F n)
      else if n = infPattern F then (if s = 0 then .posInf else .negInf) else .nan := by
  by_cases h : n < infPattern F
  · rw [if_pos h, value_mk F hn ((quot_lt_iff F hn).2 h)]
  · have hq : n / 2 ^ F.f = 2 ^ F.e - 1 := by
      by_contra hc
      exact h ((quot_lt_iff F hn).1 hc)
    obtain ⟨h1, h2, h3⟩ := fields F (s := s) hn
    rw [if_neg h]
    unfold BinFormat.value
    rw [h1, h2, h3, if_pos hq]
    have hd := Nat.div_add_mod n (2 ^ F.f)
    rw [hq, Nat.mul_comm] at hd
    have hI : infPattern F = (2 ^ F.e - 1) * 2 ^ F.f := rfl
    rw [← hI] at hd
    generalize n % 2 ^ F.f = z at *
    by_cases hz : z = 0
    · have e : n = infPattern F := by omega
      rw [if_neg (not_not.2 hz), if_pos e]
    · have e : ¬ n = infPattern F := by omega
      rw [if_pos hz, if_neg e]

/-- The place of a pattern among the patterns. -/
def ordOf (s n : Nat) : Int := if s = 0 then n else -n

/-- Floats that are not NaN compare as their places. -/
theorem value_lt (F : BinFormat) (hF : F.Wide) {s n t m : Nat} (hs : s = 0 ∨ s = 1) (ht : t = 0 ∨ t = 1) (hn : n ≤ infPattern F) (hm : m ≤ infPattern F) :
    fltLt (F.value (s * 2 ^ (F.e + F.f) + n)) (F.value (t * 2 ^ (F.e + F.f) + m)) = decide (ordOf s n < ordOf t m) := by
  have hI := infPattern_lt F
  have hI0 := infPattern_pos F hF
  rw [value_cases F (lt_of_le_of_lt hn hI), value_cases F (lt_of_le_of_lt hm hI)]
  generalize infPattern F = I at *
  have h0 := mag_zero F
  have hmono := mag_strictMono F
  have hlt : ∀ x y : Nat, mag F x < mag F y ↔ x < y := fun x y => hmono.lt_iff_lt
  have hneg : ∀ x y : Nat, -mag F x < mag F y ↔ 0 < x + y := by
    intro x y
    have h1 := mag_nonneg F x
    have h2 := mag_nonneg F y
    constructor
    · intro h
      by_contra hc
      have : x = 0 ∧ y = 0 := by omega
      rw [this.1, this.2, h0] at h
      simp at h
    · intro h
      rcases Nat.eq_zero_or_pos x with hx | hx
      · have := (hlt 0 y).2 (by omega)
        rw [h0] at this
        linarith
      · have := (hlt 0 x).2 hx
        rw [h0] at this
        linarith
  have hpos : ∀ x y : Nat, ¬ mag F x < -mag F y := by
    intro x y h
    have h1 := mag_nonneg F x
    have h2 := mag_nonneg F y
    linarith
  rcases Nat.lt_or_eq_of_le hn with hn' | hn' <;> rcases Nat.lt_or_eq_of_le hm with hm' | hm' <;>
    rcases hs with rfl | rfl <;> rcases ht with rfl | rfl <;>
    (try rw [if_neg (show ¬ n < I by omega)]) <;> (try rw [if_neg (show ¬ m < I by omega)]) <;>
    rw [if_pos hn', if_pos hm'] <;>
    simp only [if_true, if_false, ordOf, fltLt, one_mul, neg_one_mul, one_ne_zero, neg_lt_neg_iff, hlt, hneg, hpos] <;>
    first
      | (rw [decide_eq_decide]; simp only [false_iff]; omega)
      | (rw [decide_eq_decide]; omega)
      | (symm; rw [decide_eq_true_eq]; omega)
      | (symm; rw [decide_eq_false_iff_not]; omega)

theorem flt_trichotomy {x y : Flt ℚ} (hx : x ≠ .nan) (hy : y ≠ .nan) : fltEq x y = (!fltLt x y && !fltLt y x) := by
  rw [Bool.eq_iff_iff]
  cases x <;> cases y <;> simp_all [fltEq, fltLt]
  rw [le_antisymm_iff, and_comm]

/-- Floats that are not NaN are equal when their places are. -/
theorem value_eq (F : BinFormat) (hF : F.Wide) {s n t m : Nat} (hs : s = 0 ∨ s = 1) (ht : t = 0 ∨ t = 1) (hn : n ≤ infPattern F)
    (hm : m ≤ infPattern F) :
    fltEq (F.value (s * 2 ^ (F.e + F.f) + n)) (F.value (t * 2 ^ (F.e + F.f) + m)) = decide (ordOf s n = ordOf t m) := by
  have hI := infPattern_lt F
  have nn : ∀ s k : Nat, k ≤ infPattern F → F.value (s * 2 ^ (F.e + F.f) + k) ≠ .nan := by
    intro s k hk
    rw [value_cases F (lt_of_le_of_lt hk hI)]
    split
    · simp
    · split
      · split <;> simp
      · omega
  rw [flt_trichotomy (nn s n hn) (nn t m hm), value_lt F hF hs ht hn hm, value_lt F hF ht hs hm hn]
  rw [← decide_not, ← decide_not, ← Bool.decide_and, decide_eq_decide]
  omega

/-- A pattern is NaN when it lies beyond infinity. -/
theorem value_nan_iff (F : BinFormat) {s n : Nat} (hn : n < 2 ^ (F.e + F.f)) :
    F.value (s * 2 ^ (F.e + F.f) + n) = .nan ↔ infPattern F < n := by
  rw [value_cases F hn]
  split
  · simp only [reduceCtorEq, false_iff]; omega
  · split
    · split <;> (simp only [reduceCtorEq, false_iff]; omega)
    · simp only [true_iff]; omega

/-- The error of rounding is at most half of the last place. -/
theorem roundBin_err {p : Nat} {lo hi : Int} {q r : ℚ} (h : roundBin p lo hi q = .num r) :
    |q - r| ≤ 2 ^ (max lo (Int.log 2 |q| - p + 1)) / 2 := by
  unfold roundBin at h
  dsimp only at h
  generalize he : max lo (Int.log 2 |q| - p + 1) = e at h ⊢
  have hr : r = roundEven (q / 2 ^ e) * (2 : ℚ) ^ e := by
    split at h
    · cases h
    · split at h
      · cases h
      · cases h; rfl
  have h2 : q - r = (q / 2 ^ e - roundEven (q / 2 ^ e)) * 2 ^ e := by
    rw [hr, sub_mul, div_mul_cancel₀ _ (two_zpow_pos e).ne']
  have h3 : |q / 2 ^ e - roundEven (q / 2 ^ e)| ≤ 1 / 2 := by
    generalize q / 2 ^ e = t
    have hf := Int.floor_le t
    have hf' := Int.lt_floor_add_one t
    rcases roundEven_cases t with ⟨hc, hb⟩ | ⟨hc, hb⟩
    · rw [hc, abs_of_nonneg (by linarith)]; exact hb
    · rw [hc]
      push_cast
      rw [abs_of_nonpos (by linarith)]
      linarith
  rw [h2, abs_mul, abs_of_pos (two_zpow_pos e)]
  have := mul_le_mul_of_nonneg_right h3 (two_zpow_pos e).le
  linarith

end Rumpy
