import Verif.Model.Cast
import Verif.Lemmas.Float
import Verif.Lemmas.Compare
import Verif.Lemmas.Copy
import Mathlib.Tactic.Linarith
import Mathlib.Tactic.FieldSimp
import Mathlib.Tactic.Positivity
import Mathlib.Tactic.Ring
import Mathlib.Algebra.Order.Round
/-!
# Lemmas: rounding and conversion of elements
-/

namespace Rumpy
open Spec

theorem roundEven_int (n : Int) : roundEven (n : ℚ) = n := by
  unfold roundEven
  simp

theorem roundEven_cases (q : ℚ) : (roundEven q = ⌊q⌋ ∧ q - ⌊q⌋ ≤ 1 / 2) ∨ (roundEven q = ⌊q⌋ + 1 ∧ 1 / 2 ≤ q - ⌊q⌋) := by
  unfold roundEven
  dsimp only
  split
  · next h => exact Or.inl ⟨rfl, h.le⟩
  · next h =>
    split
    · next h' => exact Or.inr ⟨rfl, h'.le⟩
    · next h' =>
      push Not at h h'
      split
      · exact Or.inl ⟨rfl, h'⟩
      · exact Or.inr ⟨rfl, h⟩

theorem roundEven_nearest (q : ℚ) (n : Int) : |q - roundEven q| ≤ |q - n| := by
  have h1 : (⌊q⌋ : ℚ) ≤ q := Int.floor_le q
  have h2 : q < ⌊q⌋ + 1 := Int.lt_floor_add_one q
  have h3 : n ≤ ⌊q⌋ ∨ ⌊q⌋ + 1 ≤ n := by omega
  rcases roundEven_cases q with ⟨e, h⟩ | ⟨e, h⟩
  · rw [e, abs_of_nonneg (by linarith)]
    rcases h3 with h3 | h3
    · have : (n : ℚ) ≤ ⌊q⌋ := by exact_mod_cast h3
      rw [abs_of_nonneg (by linarith)]
      linarith
    · have : ((⌊q⌋ + 1 : Int) : ℚ) ≤ n := by exact_mod_cast h3
      push_cast at this
      rw [abs_of_nonpos (by linarith)]
      linarith
  · rw [e]
    push_cast
    rw [abs_of_nonpos (by linarith)]
    rcases h3 with h3 | h3
    · have : (n : ℚ) ≤ ⌊q⌋ := by exact_mod_cast h3
      rw [abs_of_nonneg (by linarith)]
      linarith
    · have : ((⌊q⌋ + 1 : Int) : ℚ) ≤ n := by exact_mod_cast h3
      push_cast at this
      rw [abs_of_nonpos (by linarith)]
      linarith

theorem two_zpow_pos (e : Int) : (0 : ℚ) < 2 ^ e := zpow_pos (by norm_num) e

theorem two_zpow_le {a b : Int} (h : a ≤ b) : (2 : ℚ) ^ a ≤ 2 ^ b := zpow_le_zpow_right₀ (by norm_num) h

theorem two_pow_lt {a b : Nat} (h : a < b) : (2 : ℚ) ^ a < 2 ^ b := pow_lt_pow_right₀ (by norm_num) h

theorem two_zpow_lt_iff {a b : Int} : (2 : ℚ) ^ a < 2 ^ b ↔ a < b := zpow_lt_zpow_iff_right₀ (by norm_num)

/-- A multiple of a larger power of two is a multiple of a smaller one. -/
theorem zpow_multiple (m : Int) {e k : Int} (h : e ≤ k) : ∃ n : Int, (m : ℚ) * 2 ^ k = n * 2 ^ e := by
  refine ⟨m * 2 ^ (k - e).toNat, ?_⟩
  push_cast
  rw [mul_assoc]
  congr 1
  rw [← zpow_natCast, ← zpow_add₀ (by norm_num : (2 : ℚ) ≠ 0), Int.toNat_of_nonneg (by omega)]
  congr 1
  omega

theorem log_bounds {q : ℚ} (h : q ≠ 0) : (2 : ℚ) ^ Int.log 2 |q| ≤ |q| ∧ |q| < 2 ^ (Int.log 2 |q| + 1) := by
  have h1 := Int.zpow_log_le_self (b := 2) (r := |q|) (by norm_num) (abs_pos.2 h)
  have h2 := Int.lt_zpow_succ_log_self (b := 2) (by norm_num) |q|
  exact ⟨by exact_mod_cast h1, by exact_mod_cast h2⟩

theorem log_lt_of_lt {q : ℚ} (h : q ≠ 0) {k : Int} (hk : |q| < 2 ^ k) : Int.log 2 |q| < k := by
  have h1 := (log_bounds h).1
  exact two_zpow_lt_iff.1 (lt_of_le_of_lt h1 hk)

theorem isFloat_abs_lt {p : Nat} {lo hi : Int} {x : ℚ} (h : IsFloat p lo hi x) : |x| < 2 ^ (hi + p) := by
  obtain ⟨m, e, hm, -, he, rfl⟩ := h
  rw [abs_mul, abs_of_pos (two_zpow_pos e)]
  have h1 : |(m : ℚ)| < 2 ^ (p : Int) := by
    rw [zpow_natCast]
    exact_mod_cast hm
  calc |(m : ℚ)| * 2 ^ e < 2 ^ (p : Int) * 2 ^ e := mul_lt_mul_of_pos_right h1 (two_zpow_pos e)
    _ = 2 ^ (p + e) := (zpow_add₀ (by norm_num) _ _).symm
    _ ≤ 2 ^ (hi + p) := two_zpow_le (by omega)

/-- Numbers of the format are kept. -/
theorem roundBin_exact {p : Nat} {lo hi : Int} {x : ℚ} (h : IsFloat p lo hi x) : roundBin p lo hi x = .num x := by
  have hlt := isFloat_abs_lt h
  obtain ⟨m, e, hm, hlo, he, hx⟩ := h
  have key : ∃ n : Int, x = n * (2 : ℚ) ^ (max lo (Int.log 2 |x| - p + 1)) := by
    by_cases h0 : x = 0
    · exact ⟨0, by rw [h0]; simp⟩
    · have h1 : |x| < 2 ^ ((p : Int) + e) := by
        rw [hx, abs_mul, abs_of_pos (two_zpow_pos e), zpow_add₀ (by norm_num)]
        apply mul_lt_mul_of_pos_right _ (two_zpow_pos e)
        rw [zpow_natCast]
        exact_mod_cast hm
      have h2 := log_lt_of_lt h0 h1
      obtain ⟨n, hn⟩ := zpow_multiple m (e := max lo (Int.log 2 |x| - p + 1)) (k := e) (by omega)
      exact ⟨n, by rw [← hn]; exact hx⟩
  obtain ⟨n, hn⟩ := key
  unfold roundBin
  dsimp only
  have hq : x / 2 ^ (max lo (Int.log 2 |x| - p + 1)) = n := by
    rw [div_eq_iff (two_zpow_pos _).ne']
    exact hn
  rw [hq, roundEven_int, ← hn]
  rw [abs_lt] at hlt
  rw [if_neg (by linarith [hlt.2]), if_neg (by linarith [hlt.1])]

/-- The rounded number is at least as close as any number of the format. -/
theorem roundBin_nearest {p : Nat} {lo hi : Int} (hp : 0 < p) {q r : ℚ} (h : roundBin p lo hi q = .num r) {y : ℚ}
    (hy : IsFloat p lo hi y) : |q - r| ≤ |q - y| := by
  unfold roundBin at h
  dsimp only at h
  generalize he : max lo (Int.log 2 |q| - p + 1) = e at h
  have hr : r = roundEven (q / 2 ^ e) * (2 : ℚ) ^ e := by
    split at h
    · cases h
    · split at h
      · cases h
      · cases h; rfl
  have grid : ∀ n : Int, |q - r| ≤ |q - n * (2 : ℚ) ^ e| := by
    intro n
    have h1 := roundEven_nearest (q / 2 ^ e) n
    have h2 : q - r = (q / 2 ^ e - roundEven (q / 2 ^ e)) * 2 ^ e := by
      rw [hr, sub_mul, div_mul_cancel₀ _ (two_zpow_pos e).ne']
    have h3 : q - n * 2 ^ e = (q / 2 ^ e - n) * 2 ^ e := by
      rw [sub_mul, div_mul_cancel₀ _ (two_zpow_pos e).ne']
    rw [h2, h3, abs_mul, abs_mul]
    exact mul_le_mul_of_nonneg_right h1 (abs_nonneg _)
  obtain ⟨m, k, hm, hlo, hk, hym⟩ := hy
  by_cases hke : e ≤ k
  · obtain ⟨n, hn⟩ := zpow_multiple m hke
    rw [hym, hn]
    exact grid n
  · have he' : e = Int.log 2 |q| - p + 1 := by omega
    by_cases h0 : q = 0
    · subst h0
      have := grid 0
      simp only [Int.cast_zero, zero_mul, sub_zero, abs_zero] at this
      exact this.trans (abs_nonneg _)
    · have hb := log_bounds h0
      have hy' : |y| < 2 ^ Int.log 2 |q| := by
        rw [hym, abs_mul, abs_of_pos (two_zpow_pos k)]
        have h1 : |(m : ℚ)| < 2 ^ (p : Int) := by
          rw [zpow_natCast]
          exact_mod_cast hm
        calc |(m : ℚ)| * 2 ^ k < 2 ^ (p : Int) * 2 ^ k := mul_lt_mul_of_pos_right h1 (two_zpow_pos k)
          _ = 2 ^ (p + k) := (zpow_add₀ (by norm_num) _ _).symm
          _ ≤ 2 ^ Int.log 2 |q| := two_zpow_le (by omega)
      have hs : abs (q - (if 0 < q then (1 : ℚ) else -1) * 2 ^ Int.log 2 |q|) = |q| - 2 ^ Int.log 2 |q| := by
        split
        · next hq => rw [one_mul, abs_of_pos hq] at *; rw [abs_of_nonneg (by linarith [hb.1])]
        · next hq =>
          have hq' : q < 0 := lt_of_le_of_ne (not_lt.1 hq) h0
          rw [neg_one_mul, sub_neg_eq_add, abs_of_neg hq'] at *
          rw [abs_of_nonpos (by linarith [hb.1])]
          ring
      obtain ⟨n, hn⟩ := zpow_multiple (if 0 < q then 1 else -1) (e := e) (k := Int.log 2 |q|) (by omega)
      have hg := grid n
      rw [← hn] at hg
      have hc : ((if 0 < q then 1 else -1 : Int) : ℚ) = if 0 < q then (1 : ℚ) else -1 := by split <;> simp
      rw [hc, hs] at hg
      have := abs_sub_abs_le_abs_sub q y
      linarith

/-- The result belongs to the format. -/
theorem roundBin_isFlt {p : Nat} {lo hi : Int} (hp : 0 < p) (hlh : lo ≤ hi) (q : ℚ) : IsFlt p lo hi (roundBin p lo hi q) := by
  unfold roundBin
  dsimp only
  generalize he : max lo (Int.log 2 |q| - p + 1) = e
  split
  · trivial
  · next h1 =>
    split
    · trivial
    · next h2 =>
      push Not at h1 h2
      show IsFloat p lo hi _
      generalize hm : roundEven (q / 2 ^ e) = m at *
      have hbound : |m| ≤ 2 ^ p := by
        by_cases h0 : q = 0
        · have : m = 0 := by
            rw [← hm, h0, zero_div]
            exact_mod_cast roundEven_int 0
          rw [this]; simp
        · have hb := (log_bounds h0).2
          have hq : |q / 2 ^ e| ≤ 2 ^ p := by
            rw [abs_div, abs_of_pos (two_zpow_pos e), div_le_iff₀ (two_zpow_pos e), ← zpow_natCast, ← zpow_add₀ (by norm_num)]
            exact hb.le.trans (two_zpow_le (by omega))
          have hn := roundEven_nearest (q / 2 ^ e)
          rw [hm] at hn
          rw [abs_le] at hq ⊢
          have n1 := hn (2 ^ p)
          have n2 := hn (-2 ^ p)
          push_cast at n1 n2
          constructor
          · by_contra hc
            push Not at hc
            have hc' : (m : ℚ) < -2 ^ p := by exact_mod_cast hc
            rw [abs_of_nonneg (by linarith), abs_of_nonneg (by linarith)] at n2
            linarith
          · by_contra hc
            push Not at hc
            have hc' : (2 : ℚ) ^ p < m := by exact_mod_cast hc
            rw [abs_of_nonpos (by linarith), abs_of_nonpos (by linarith)] at n1
            linarith
      have hsmall : |(m : ℚ) * 2 ^ e| < 2 ^ (hi + p) := abs_lt.2 ⟨h2, h1⟩
      rw [abs_mul, abs_of_pos (two_zpow_pos e)] at hsmall
      by_cases hz : m = 0
      · exact ⟨0, lo, by simp, le_refl _, hlh, by rw [hz]; simp⟩
      · have hm1 : (1 : ℚ) ≤ |(m : ℚ)| := by
          have : 1 ≤ |m| := Int.one_le_abs hz
          exact_mod_cast this
        -- write the number with exponent `min e hi`, or `e + 1` for the largest mantissa
        by_cases hfull : |m| = 2 ^ p
        · have hfq : |(m : ℚ)| = 2 ^ (p : Int) := by
            rw [zpow_natCast]
            exact_mod_cast congrArg (Int.cast : Int → ℚ) hfull
          have hehi : e + 1 ≤ hi := by
            rw [hfq, ← zpow_add₀ (by norm_num), two_zpow_lt_iff] at hsmall
            omega
          have hmm : m = 2 ^ p ∨ m = -2 ^ p := by
            rcases abs_choice m with h | h <;> rw [h] at hfull <;> [left; right] <;> omega
          have hpp : (2 : ℚ) ^ p = 2 ^ (p - 1) * 2 := by
            rw [← pow_succ]; congr 1; omega
          have habs : |(2 : Int) ^ (p - 1)| < 2 ^ p := by
            rw [abs_of_pos (by positivity)]
            exact pow_lt_pow_right₀ (by norm_num) (by omega)
          rcases hmm with h | h
          · refine ⟨2 ^ (p - 1), e + 1, habs, by omega, hehi, ?_⟩
            rw [h, zpow_add_one₀ (by norm_num)]
            push_cast
            rw [hpp]; ring
          · refine ⟨-2 ^ (p - 1), e + 1, by rw [abs_neg]; exact habs, by omega, hehi, ?_⟩
            rw [h, zpow_add_one₀ (by norm_num)]
            push_cast
            rw [hpp]; ring
        · have hlt : |m| < 2 ^ p := lt_of_le_of_ne hbound hfull
          by_cases hehi : e ≤ hi
          · exact ⟨m, e, hlt, by omega, hehi, rfl⟩
          · -- then the mantissa can be shifted left
            obtain ⟨n, hn⟩ := zpow_multiple m (e := hi) (k := e) (by omega)
            refine ⟨n, hi, ?_, hlh, le_refl _, hn⟩
            have : |(n : ℚ)| * 2 ^ hi < 2 ^ (p : Int) * 2 ^ hi := by
              rw [← zpow_add₀ (by norm_num), add_comm (p : Int), ← abs_of_pos (two_zpow_pos hi), ← abs_mul, ← hn, abs_mul,
                abs_of_pos (two_zpow_pos e)]
              exact hsmall
            have := lt_of_mul_lt_mul_right this (two_zpow_pos hi).le
            rw [zpow_natCast] at this
            exact_mod_cast this

theorem roundEven_neg (q : ℚ) : roundEven (-q) = -roundEven q := by
  by_cases hi : q = ⌊q⌋
  · rw [hi]
    have := roundEven_int (-⌊q⌋)
    push_cast at this
    rw [this, roundEven_int]
  · have h1 : (⌊q⌋ : ℚ) < q := lt_of_le_of_ne (Int.floor_le q) (Ne.symm hi)
    have h2 : q < ⌊q⌋ + 1 := Int.lt_floor_add_one q
    have hf : ⌊-q⌋ = -⌊q⌋ - 1 := by
      rw [Int.floor_eq_iff]
      push_cast
      constructor <;> linarith
    unfold roundEven
    dsimp only
    rw [hf]
    push_cast
    rcases lt_trichotomy (q - ⌊q⌋) (1 / 2) with h | h | h
    · rw [if_neg (by linarith), if_pos (by linarith), if_pos h]; ring
    · have e : -q - (-(⌊q⌋ : ℚ) - 1) = 1 / 2 := by linarith
      rw [e, h]
      simp only [lt_irrefl, if_false]
      split <;> split <;> omega
    · rw [if_pos (by linarith), if_neg (by linarith), if_pos h]; ring

/-- A float with the opposite sign. -/
def fltNeg : Flt ℚ → Flt ℚ
  | .nan => .nan
  | .negInf => .posInf
  | .posInf => .negInf
  | .num q => .num (-q)

theorem roundBin_neg (p : Nat) (lo hi : Int) (q : ℚ) : roundBin p lo hi (-q) = fltNeg (roundBin p lo hi q) := by
  unfold roundBin
  dsimp only
  rw [abs_neg, neg_div, roundEven_neg]
  push_cast
  rw [neg_mul]
  generalize (roundEven (q / 2 ^ max lo (Int.log 2 |q| - p + 1)) : ℚ) * 2 ^ max lo (Int.log 2 |q| - p + 1) = r
  have hpos := two_zpow_pos (hi + p)
  by_cases h1 : (2 : ℚ) ^ (hi + p) ≤ r
  · rw [if_neg (by linarith), if_pos (by linarith), if_pos h1]; rfl
  · by_cases h2 : r ≤ -(2 : ℚ) ^ (hi + p)
    · rw [if_pos (by linarith), if_neg h1, if_pos h2]; rfl
    · rw [if_neg (by linarith), if_neg (by linarith), if_neg h1, if_neg h2]; rfl

/-- `x as f64` is rounding to the 64-bit format. -/
theorem natToF64_round {x : Nat} (h : x < 2 ^ 65) : roundBin 53 (-1074) 971 (x : ℚ) = .num (natToF64 x : ℚ) := by
  unfold natToF64
  by_cases hs : x < 2 ^ 53
  · rw [if_pos hs]
    refine roundBin_exact ⟨x, 0, ?_, by norm_num, by norm_num, by simp⟩
    rw [abs_of_nonneg (by positivity)]
    exact_mod_cast hs
  · rw [if_neg hs]
    dsimp only
    push Not at hs
    have hx0 : x ≠ 0 := by
      rintro rfl
      exact absurd hs (by norm_num)
    have hl1 : 2 ^ x.log2 ≤ x := Nat.log2_self_le hx0
    have hl2 : x < 2 ^ (x.log2 + 1) := Nat.lt_log2_self
    have hge : 53 ≤ x.log2 := (Nat.le_log2 hx0).2 hs
    have hle : x.log2 < 65 := (Nat.log2_lt hx0).2 h
    have hlog : Int.log 2 |(x : ℚ)| = x.log2 := by
      rw [abs_of_nonneg (by positivity), Int.log_natCast, Nat.log2_eq_log_two]
    generalize x.log2 = L at *
    have hs1 : L - 52 = (L - 53) + 1 := by omega
    generalize hsd : L - 52 = s at *
    have hspos : 0 < s := by omega
    have hexp : max (-1074 : Int) (Int.log 2 |(x : ℚ)| - (53 : Nat) + 1) = (s : Int) := by
      rw [hlog]; omega
    have hdm : (x : ℚ) = ((x / 2 ^ s : Nat) : ℚ) * 2 ^ s + ((x % 2 ^ s : Nat) : ℚ) := by
      have := Nat.div_add_mod x (2 ^ s)
      have h2 : ((2 ^ s * (x / 2 ^ s) + x % 2 ^ s : Nat) : ℚ) = x := by rw [this]
      rw [← h2]; push_cast; ring
    have hmod : x % 2 ^ s < 2 ^ s := Nat.mod_lt _ (by positivity)
    have hhalf : (2 : ℚ) ^ s = 2 * 2 ^ (s - 1) := by
      rw [← pow_succ']; congr 1; omega
    have hp : (0 : ℚ) < 2 ^ s := by positivity
    have hmq : ((x % 2 ^ s : Nat) : ℚ) < 2 ^ s := by exact_mod_cast hmod
    have hq : (x : ℚ) / 2 ^ s = ((x / 2 ^ s : Nat) : ℚ) + ((x % 2 ^ s : Nat) : ℚ) / 2 ^ s := by
      rw [hdm]
      field_simp
    have hfl : ⌊(x : ℚ) / 2 ^ s⌋ = ((x / 2 ^ s : Nat) : Int) := by
      rw [Int.floor_eq_iff, hq]
      have : (0 : ℚ) ≤ ((x % 2 ^ s : Nat) : ℚ) / 2 ^ s := by positivity
      have h3 : ((x % 2 ^ s : Nat) : ℚ) / 2 ^ s < 1 := by rw [div_lt_one hp]; exact hmq
      rw [Int.cast_natCast]
      constructor <;> linarith
    have hre : roundEven ((x : ℚ) / 2 ^ s) =
        (((if x % 2 ^ s > 2 ^ (s - 1) ∨ (x % 2 ^ s = 2 ^ (s - 1) ∧ x / 2 ^ s % 2 = 1) then x / 2 ^ s + 1 else x / 2 ^ s) : Nat) : Int) := by
      unfold roundEven
      dsimp only
      rw [hfl, hq]
      have hr : ((x / 2 ^ s : Nat) : ℚ) + ((x % 2 ^ s : Nat) : ℚ) / 2 ^ s - (((x / 2 ^ s : Nat) : Int) : ℚ) = ((x % 2 ^ s : Nat) : ℚ) / 2 ^ s := by
        rw [Int.cast_natCast]; ring
      rw [hr]
      have c1 : ((x % 2 ^ s : Nat) : ℚ) / 2 ^ s < 1 / 2 ↔ x % 2 ^ s < 2 ^ (s - 1) := by
        rw [div_lt_iff₀ hp, hhalf]
        have : (1 / 2 : ℚ) * (2 * 2 ^ (s - 1)) = ((2 ^ (s - 1) : Nat) : ℚ) := by push_cast; ring
        rw [this]
        exact Nat.cast_lt
      have c2 : 1 / 2 < ((x % 2 ^ s : Nat) : ℚ) / 2 ^ s ↔ 2 ^ (s - 1) < x % 2 ^ s := by
        rw [lt_div_iff₀ hp, hhalf]
        have : (1 / 2 : ℚ) * (2 * 2 ^ (s - 1)) = ((2 ^ (s - 1) : Nat) : ℚ) := by push_cast; ring
        rw [this]
        exact Nat.cast_lt
      simp only [c1, c2]
      generalize x % 2 ^ s = r at *
      generalize x / 2 ^ s = q at *
      generalize 2 ^ (s - 1) = t at *
      rcases lt_trichotomy r t with h | h | h
      · rw [if_pos h, if_neg (by omega)]
      · rw [if_neg (by omega), if_neg (by omega)]
        by_cases he : q % 2 = 1
        · rw [if_neg (by omega), if_pos (Or.inr ⟨h, he⟩)]; push_cast; rfl
        · rw [if_pos (by omega), if_neg (by omega)]
      · rw [if_neg (by omega), if_pos h, if_pos (Or.inl h)]; push_cast; rfl
    unfold roundBin
    dsimp only
    rw [hexp, zpow_natCast, hre]
    generalize hQ : (if x % 2 ^ s > 2 ^ (s - 1) ∨ (x % 2 ^ s = 2 ^ (s - 1) ∧ x / 2 ^ s % 2 = 1) then x / 2 ^ s + 1 else x / 2 ^ s) = Q
    have hQle : Q ≤ x + 1 := by
      rw [← hQ]
      have := Nat.div_le_self x (2 ^ s)
      split <;> omega
    have hsmall : ((Q : Int) : ℚ) * 2 ^ s < 2 ^ ((971 : Int) + (53 : Nat)) := by
      have e1 : ((Q : Int) : ℚ) ≤ 2 ^ 66 := by
        have : Q ≤ 2 ^ 66 := by omega
        push_cast
        exact_mod_cast this
      have e2 : (2 : ℚ) ^ s ≤ 2 ^ 66 := pow_le_pow_right₀ (by norm_num) (by omega)
      have e3 : ((971 : Int) + (53 : Nat)) = ((1024 : Nat) : Int) := by norm_num
      rw [e3, zpow_natCast]
      calc ((Q : Int) : ℚ) * 2 ^ s ≤ 2 ^ 66 * 2 ^ 66 := mul_le_mul e1 e2 hp.le (by positivity)
        _ = 2 ^ 132 := by rw [← pow_add]
        _ < 2 ^ 1024 := two_pow_lt (by omega)
    have hnn : (0 : ℚ) ≤ ((Q : Int) : ℚ) * 2 ^ s := mul_nonneg (Int.cast_nonneg (Int.natCast_nonneg Q)) hp.le
    have hpos := two_zpow_pos ((971 : Int) + (53 : Nat))
    rw [if_neg (not_le.2 hsmall), if_neg (by linarith)]
    push_cast
    rfl

theorem intToF64_round {n : Int} (h : n.natAbs < 2 ^ 65) : roundBin 53 (-1074) 971 (n : ℚ) = .num (intToF64 n : ℚ) := by
  unfold intToF64
  split
  · next hn =>
    have := natToF64_round (x := n.toNat) (by omega)
    have e : ((n.toNat : Nat) : ℚ) = n := by
      rw [← Int.cast_natCast, Int.toNat_of_nonneg hn]
    rw [e] at this
    rw [this]; push_cast; rfl
  · next hn =>
    have := natToF64_round (x := (-n).toNat) (by omega)
    have e : (((-n).toNat : Nat) : ℚ) = -n := by
      rw [← Int.cast_natCast, Int.toNat_of_nonneg (by omega)]; push_cast; rfl
    rw [e, roundBin_neg] at this
    push_cast
    cases hr : roundBin 53 (-1074) 971 (n : ℚ) with
    | num r =>
      rw [hr] at this
      injection this with this
      rw [← this]; simp
    | nan => rw [hr] at this; cases this
    | posInf => rw [hr] at this; cases this
    | negInf => rw [hr] at this; cases this

theorem intToF64_zero_iff (n : Int) : intToF64 n = 0 ↔ n = 0 := by
  have key : ∀ x : Nat, natToF64 x = 0 ↔ x = 0 := by
    intro x
    unfold natToF64
    split
    · rfl
    · next h =>
      have hx0 : x ≠ 0 := by
        rintro rfl
        exact h (by norm_num)
      dsimp only
      constructor
      · intro h0
        exfalso
        rcases Nat.mul_eq_zero.1 h0 with h1 | h1
        · have hq : 0 < x / 2 ^ (x.log2 - 52) := by
            apply Nat.div_pos _ (by positivity)
            exact (Nat.pow_le_pow_right (by norm_num) (by omega)).trans (Nat.log2_self_le hx0)
          split at h1 <;> omega
        · exact absurd h1 (by positivity)
      · intro h0; exact absurd h0 hx0
  unfold intToF64
  split
  · have := key n.toNat; omega
  · have := key (-n).toNat; omega

theorem trunc_spec (q : ℚ) : IsTrunc q (if 0 ≤ q then ⌊q⌋ else ⌈q⌉) := by
  unfold IsTrunc
  split
  · next h =>
    have h1 : (⌊q⌋ : ℚ) ≤ q := Int.floor_le q
    have h2 : q < ⌊q⌋ + 1 := Int.lt_floor_add_one q
    have h3 : (0 : ℚ) ≤ ⌊q⌋ := by exact_mod_cast Int.floor_nonneg.2 h
    rw [abs_of_nonneg h3, abs_of_nonneg h, abs_of_nonneg (by linarith)]
    exact ⟨h1, by linarith, mul_nonneg h h3⟩
  · next h =>
    push Not at h
    have h1 : q ≤ (⌈q⌉ : ℚ) := Int.le_ceil q
    have h2 : (⌈q⌉ : ℚ) < q + 1 := Int.ceil_lt_add_one q
    have h3 : (⌈q⌉ : ℚ) ≤ 0 := by
      have : ⌈q⌉ ≤ 0 := Int.ceil_le.2 (by simpa using h.le)
      exact_mod_cast this
    rw [abs_of_nonpos h3, abs_of_neg h, abs_of_nonpos (by linarith)]
    exact ⟨by linarith, by linarith, mul_nonneg_of_nonpos_of_nonpos h.le h3⟩

theorem trunc_unique {q : ℚ} {n m : Int} (hn : IsTrunc q n) (hm : IsTrunc q m) : n = m := by
  obtain ⟨a1, a2, a3⟩ := hn
  obtain ⟨b1, b2, b3⟩ := hm
  rw [abs_lt] at a2 b2
  by_contra hne
  have hcase : n + 1 ≤ m ∨ m + 1 ≤ n := by omega
  have aux : ∀ x y : Int, |(x : ℚ)| ≤ |q| → |(y : ℚ)| ≤ |q| → -1 < q - x → q - x < 1 → -1 < q - y → q - y < 1 → 0 ≤ q * x → 0 ≤ q * y → x + 1 ≤ y → False := by
    intro x y hx hy x1 x2 y1 y2 x3 y3 hxy
    have hxy' : (x : ℚ) + 1 ≤ y := by exact_mod_cast hxy
    rcases lt_trichotomy q 0 with h | h | h
    · have ex : (x : ℚ) ≤ 0 := by
        by_contra hc; push Not at hc
        have := mul_neg_of_neg_of_pos h hc
        linarith
      rw [abs_of_nonpos ex, abs_of_neg h] at hx
      linarith
    · subst h
      rw [abs_zero] at hx hy
      have := abs_nonpos_iff.1 hx
      have := abs_nonpos_iff.1 hy
      linarith
    · have ey : (0 : ℚ) ≤ y := by
        by_contra hc; push Not at hc
        have := mul_neg_of_pos_of_neg h hc
        linarith
      rw [abs_of_nonneg ey, abs_of_pos h] at hy
      linarith
  rcases hcase with h | h
  · exact aux n m a1 b1 a2.1 a2.2 b2.1 b2.2 a3 b3 h
  · exact aux m n b1 a1 b2.1 b2.2 a2.1 a2.2 b3 a3 h

end Rumpy
