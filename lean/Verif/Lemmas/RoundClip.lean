import Verif.Model.RoundClip
import Verif.Lemmas.Elementwise
import Mathlib.Tactic.Linarith
import Mathlib.Tactic.FieldSimp
import Mathlib.Tactic.Ring
import Mathlib.Tactic.Positivity

/-!
# Lemmas: rounding and clipping
-/

namespace Rumpy
open Spec

theorem mapLoop_eq (f : α → γ) (mem : Int → α) {v : View} (hw : v.WF) (zero : γ) :
    mapLoop f mem v zero = ⟨v.shape, (indices v.shape).map fun i => f (mem (v.addr i))⟩ := by
  unfold mapLoop
  dsimp only
  rw [sizeOf_eq]
  split
  · next h0 =>
    have : indices v.shape = [] := List.eq_nil_of_length_eq_zero (by rw [length_indices, h0])
    simp [h0, this]
  · split
    · next hc =>
      rw [writes_simple (g := fun i => f (mem (v.addr i))) (by simp)]
      intro idx hi
      simp only [cFlag_addr hw hc hi]
    · rw [writes_addrs hw (fun p => f (mem p)) _ (by simp)]

theorem roundAway_near (x : Rat) : |x - roundAway x| ≤ 1 / 2 := by
  unfold roundAway
  rw [abs_le]
  split
  · have h1 := Int.floor_le (x + 1 / 2)
    have h2 := Int.lt_floor_add_one (x + 1 / 2)
    constructor <;> linarith
  · have h1 := Int.le_ceil (x - 1 / 2)
    have h2 := Int.ceil_lt_add_one (x - 1 / 2)
    constructor <;> linarith

/-- An integer within one half is nearest. -/
theorem near_int {x : Rat} {m : Int} (h : |x - m| ≤ 1 / 2) (n : Int) : |x - m| ≤ |x - n| := by
  by_cases e : n = m
  · rw [e]
  · have h1 : (1 : Rat) ≤ |(m : Rat) - n| := by
      rw [← Int.cast_sub, ← Int.cast_abs]
      have : (1 : Int) ≤ |m - n| := Int.one_le_abs (by omega)
      exact_mod_cast this
    have h2 : |(m : Rat) - n| ≤ |x - m| + |x - n| := by
      have : (m : Rat) - n = (x - n) - (x - m) := by ring
      rw [this]
      have := abs_sub (x - n) (x - m)
      linarith
    linarith

theorem pow10_pos (d : Int) : (0 : Rat) < 10 ^ d := zpow_pos (by norm_num) d

theorem roundTo_mul (d : Int) (x : Rat) : roundTo d x * 10 ^ d = roundAway (x * 10 ^ d) := by
  unfold roundTo
  exact div_mul_cancel₀ _ (pow10_pos d).ne'

theorem roundTo_decimal (d : Int) (x : Rat) : IsDecimal d (roundTo d x) := ⟨_, roundTo_mul d x⟩

theorem abs_scale (d : Int) (x y : Rat) : |x - y| * 10 ^ d = |x * 10 ^ d - y * 10 ^ d| := by
  rw [← sub_mul, abs_mul, abs_of_pos (pow10_pos d)]

theorem roundTo_rounded (d : Int) (x : Rat) : IsRounded d x (roundTo d x) := by
  refine ⟨roundTo_decimal d x, fun z hz => ?_⟩
  obtain ⟨m, hm⟩ := hz
  have hp := pow10_pos d
  refine le_of_mul_le_mul_right ?_ hp
  rw [abs_scale, abs_scale, roundTo_mul, hm]
  exact near_int (roundAway_near _) m

theorem isRounded_iff {d : Int} {x y : Rat} : IsRounded d x y ↔ IsDecimal d y ∧ |x * 10 ^ d - y * 10 ^ d| ≤ 1 / 2 := by
  have hp := pow10_pos d
  constructor
  · rintro ⟨h1, h2⟩
    refine ⟨h1, ?_⟩
    have := h2 _ (roundTo_decimal d x)
    have := mul_le_mul_of_nonneg_right this hp.le
    rw [abs_scale, abs_scale, roundTo_mul] at this
    exact this.trans (roundAway_near _)
  · rintro ⟨h1, h2⟩
    refine ⟨h1, fun z ⟨m, hm⟩ => ?_⟩
    obtain ⟨n, hn⟩ := h1
    refine le_of_mul_le_mul_right ?_ hp
    rw [abs_scale, abs_scale, hn, hm]
    rw [hn] at h2
    exact near_int h2 m

theorem roundAway_int (m : Int) : roundAway (m : Rat) = m := by
  have h := roundAway_near (m : Rat)
  by_contra hne
  have h1 : (1 : Rat) ≤ |(m : Rat) - roundAway m| := by
    rw [← Int.cast_sub, ← Int.cast_abs]
    have : (1 : Int) ≤ |m - roundAway m| := Int.one_le_abs (by omega)
    exact_mod_cast this
  linarith

theorem roundAway_neg (x : Rat) : roundAway (-x) = -roundAway x := by
  unfold roundAway
  rcases lt_trichotomy x 0 with h | h | h
  · rw [if_pos (by linarith), if_neg (by linarith), ← Int.floor_neg]
    congr 1
    ring
  · subst h
    simp
    norm_num
  · rw [if_neg (by linarith), if_pos (by linarith), ← Int.ceil_neg]
    congr 1
    ring

theorem roundAway_mono {x y : Rat} (h : x ≤ y) : roundAway x ≤ roundAway y := by
  by_cases hx : 0 ≤ x
  · unfold roundAway
    rw [if_pos hx, if_pos (hx.trans h)]
    exact Int.floor_mono (by linarith)
  · by_cases hy : 0 ≤ y
    · have h1 : roundAway x ≤ 0 := by
        unfold roundAway
        rw [if_neg hx]
        exact Int.ceil_le.mpr (by push_cast; linarith)
      have h2 : 0 ≤ roundAway y := by
        unfold roundAway
        rw [if_pos hy]
        exact Int.floor_nonneg.mpr (by linarith)
      exact h1.trans h2
    · unfold roundAway
      rw [if_neg hx, if_neg hy]
      exact Int.ceil_mono (by linarith)

end Rumpy
