import Mathlib.Tactic.Ring
import Mathlib.Tactic.Linarith
import Mathlib.Tactic.FieldSimp
import Mathlib.Data.Rat.Floor
import Verif.Model.Special
import Verif.Lemmas.Cast
/-!
# Lemmas about bit patterns of floats
-/

namespace Rumpy
open Spec

/-- The last-bit exponent for an exponent field. -/
def lastOf (F : BinFormat) (x : Nat) : Int := max 1 (x : Int) - F.bias - F.f

/-- The magnitude of a pattern without its sign. -/
def mag (F : BinFormat) (n : Nat) : ℚ :=
  ((if n / 2 ^ F.f = 0 then n % 2 ^ F.f else 2 ^ F.f + n % 2 ^ F.f : Nat) : ℚ) * (2 : ℚ) ^ lastOf F (n / 2 ^ F.f)

theorem fields (F : BinFormat) {s n : Nat} (hn : n < 2 ^ (F.e + F.f)) :
    F.sign (s * 2 ^ (F.e + F.f) + n) = s ∧ F.expo (s * 2 ^ (F.e + F.f) + n) = n / 2 ^ F.f ∧
      F.frac (s * 2 ^ (F.e + F.f) + n) = n % 2 ^ F.f := by
  have hf : 0 < 2 ^ F.f := Nat.two_pow_pos _
  have hsplit : s * 2 ^ (F.e + F.f) + n = n + 2 ^ F.f * (s * 2 ^ F.e) := by rw [pow_add]; ring
  refine ⟨?_, ?_, ?_⟩
  · unfold BinFormat.sign
    rw [add_comm, Nat.add_mul_div_right _ _ (Nat.two_pow_pos _), Nat.div_eq_of_lt hn, zero_add]
  · unfold BinFormat.expo
    rw [hsplit, Nat.add_mul_div_left _ _ hf, Nat.add_mul_mod_self_right, Nat.mod_eq_of_lt]
    rw [Nat.div_lt_iff_lt_mul hf, ← pow_add]
    exact hn
  · unfold BinFormat.frac
    rw [hsplit, Nat.add_mul_mod_self_left]

/-- Every pattern is a sign and the rest. -/
theorem pattern_cases (F : BinFormat) {b : Nat} (h : F.Pattern b) :
    ∃ s n, (s = 0 ∨ s = 1) ∧ n < 2 ^ (F.e + F.f) ∧ b = s * 2 ^ (F.e + F.f) + n := by
  refine ⟨b / 2 ^ (F.e + F.f), b % 2 ^ (F.e + F.f), ?_, Nat.mod_lt _ (Nat.two_pow_pos _), ?_⟩
  · have : b / 2 ^ (F.e + F.f) < 2 := by
      rw [Nat.div_lt_iff_lt_mul (Nat.two_pow_pos _)]
      unfold BinFormat.Pattern at h
      rw [add_assoc, pow_add, pow_one] at h
      exact h
    generalize b / 2 ^ (F.e + F.f) = t at this ⊢
    omega
  · rw [mul_comm]; exact (Nat.div_add_mod _ _).symm

/-- A pattern made of a sign and the rest. -/
theorem pattern_mk (F : BinFormat) {s n : Nat} (hs : s = 0 ∨ s = 1) (hn : n < 2 ^ (F.e + F.f)) : F.Pattern (s * 2 ^ (F.e + F.f) + n) := by
  unfold BinFormat.Pattern
  have : 2 ^ (1 + F.e + F.f) = 2 * 2 ^ (F.e + F.f) := by rw [add_assoc, pow_add, pow_one]
  rw [this]
  rcases hs with rfl | rfl <;> omega

/-- The value of a finite pattern. -/
theorem value_mk (F : BinFormat) {s n : Nat} (hn : n < 2 ^ (F.e + F.f)) (hfin : n / 2 ^ F.f ≠ 2 ^ F.e - 1) :
    F.value (s * 2 ^ (F.e + F.f) + n) = .num ((if s = 0 then 1 else -1) * mag F n) := by
  obtain ⟨h1, h2, h3⟩ := fields F (s := s) hn
  unfold BinFormat.value BinFormat.significand BinFormat.lastExp mag lastOf
  rw [h1, h2, h3, if_neg hfin]
  rw [mul_assoc]

/-- The value is a number exactly for finite patterns. -/
theorem value_num (F : BinFormat) {s n : Nat} (hn : n < 2 ^ (F.e + F.f)) {q : ℚ} (h : F.value (s * 2 ^ (F.e + F.f) + n) = .num q) :
    n / 2 ^ F.f ≠ 2 ^ F.e - 1 ∧ q = (if s = 0 then 1 else -1) * mag F n := by
  by_cases hfin : n / 2 ^ F.f = 2 ^ F.e - 1
  · exfalso
    obtain ⟨h1, h2, h3⟩ := fields F (s := s) hn
    unfold BinFormat.value at h
    rw [h2, if_pos hfin] at h
    split at h
    · cases h
    · split at h <;> cases h
  · rw [value_mk F hn hfin] at h
    exact ⟨hfin, (Flt.num.inj h).symm⟩

theorem mag_nonneg (F : BinFormat) (n : Nat) : 0 ≤ mag F n := by
  unfold mag
  exact mul_nonneg (Nat.cast_nonneg _) (two_zpow_pos _).le

theorem mag_zero (F : BinFormat) : mag F 0 = 0 := by simp [mag]

/-- The next pattern is larger by one in the last place. -/
theorem mag_succ (F : BinFormat) (n : Nat) : mag F (n + 1) = mag F n + (2 : ℚ) ^ lastOf F (n / 2 ^ F.f) := by
  have hf : 0 < 2 ^ F.f := Nat.two_pow_pos _
  have hdm := Nat.div_add_mod n (2 ^ F.f)
  have hlt := Nat.mod_lt n hf
  unfold mag
  generalize hP : 2 ^ F.f = P at *
  generalize hx : n / P = x at *
  generalize hm : n % P = m at *
  by_cases hc : m + 1 = P
  · have e : n + 1 = P * (x + 1) := by rw [mul_add, mul_one]; omega
    have h1 : (n + 1) / P = x + 1 := by rw [e, Nat.mul_div_cancel_left _ hf]
    have h2 : (n + 1) % P = 0 := by rw [e, Nat.mul_mod_right]
    rw [h1, h2, if_neg (by omega), add_zero]
    by_cases hx0 : x = 0
    · subst hx0
      rw [if_pos rfl]
      have : lastOf F (0 + 1) = lastOf F 0 := by unfold lastOf; simp
      rw [this, ← hc]
      push_cast
      ring
    · rw [if_neg hx0]
      have : lastOf F (x + 1) = lastOf F x + 1 := by unfold lastOf; push_cast; omega
      rw [this, zpow_add_one₀ (by norm_num)]
      rw [← hc]
      push_cast
      ring
  · have e : n + 1 = P * x + (m + 1) := by omega
    have h1 : (n + 1) / P = x := by
      rw [e, Nat.mul_add_div hf, Nat.div_eq_of_lt (by omega), add_zero]
    have h2 : (n + 1) % P = m + 1 := by
      rw [e, Nat.mul_add_mod, Nat.mod_eq_of_lt (by omega)]
    rw [h1, h2]
    split
    · push_cast; ring
    · push_cast; ring

theorem mag_lt_succ (F : BinFormat) (n : Nat) : mag F n < mag F (n + 1) := by
  rw [mag_succ]
  linarith [two_zpow_pos (lastOf F (n / 2 ^ F.f))]

theorem mag_strictMono (F : BinFormat) : StrictMono (mag F) := strictMono_nat_of_lt_succ (mag_lt_succ F)

/-- The exponent of the last bit of a finite pattern lies in the range of the format. -/
theorem lastOf_range (F : BinFormat) (hF : F.Wide) {x : Nat} (hx : x < 2 ^ F.e - 1) : F.minExp ≤ lastOf F x ∧ lastOf F x ≤ F.maxExp := by
  unfold BinFormat.minExp BinFormat.maxExp lastOf
  have h3 := hF.2.2
  have : (2 ^ F.e : Int) = ((2 ^ F.e : Nat) : Int) := by push_cast; rfl
  rw [this]
  generalize 2 ^ F.e = E at *
  have := hF.1
  omega

/-- A power of two in the range is a number of the format. -/
theorem isFloat_pow (F : BinFormat) (hF : F.Wide) {x : Nat} (hx : x < 2 ^ F.e - 1) :
    IsFloat F.precision F.minExp F.maxExp ((2 : ℚ) ^ lastOf F x) := by
  obtain ⟨h1, h2⟩ := lastOf_range F hF hx
  refine ⟨1, lastOf F x, ?_, h1, h2, by simp⟩
  rw [abs_one]
  have := hF.2.1
  unfold BinFormat.precision
  exact one_lt_pow₀ (by norm_num) (by omega)

theorem mag_isFloat (F : BinFormat) (hF : F.Wide) {n : Nat} (hx : n / 2 ^ F.f < 2 ^ F.e - 1) :
    IsFloat F.precision F.minExp F.maxExp (mag F n) := by
  obtain ⟨h1, h2⟩ := lastOf_range F hF hx
  refine ⟨((if n / 2 ^ F.f = 0 then n % 2 ^ F.f else 2 ^ F.f + n % 2 ^ F.f : Nat) : Int), _, ?_, h1, h2, by unfold mag; push_cast; rfl⟩
  rw [abs_of_nonneg (by positivity)]
  have hlt := Nat.mod_lt n (Nat.two_pow_pos F.f)
  unfold BinFormat.precision
  rw [pow_succ]
  have : (2 ^ F.f * 2 : Int) = ((2 ^ F.f * 2 : Nat) : Int) := by push_cast; rfl
  rw [this]
  split <;> omega

theorem isFloat_neg {p : Nat} {lo hi : Int} {x : ℚ} (h : IsFloat p lo hi x) : IsFloat p lo hi (-x) := by
  obtain ⟨m, e, hm, h1, h2, rfl⟩ := h
  exact ⟨-m, e, by rwa [abs_neg], h1, h2, by push_cast; ring⟩

/-- The magnitude of a pattern given by its fields. -/
theorem mag_mk (F : BinFormat) {x m : Nat} (hx : x ≠ 0) (hm : m < 2 ^ F.f) :
    (x * 2 ^ F.f + m) / 2 ^ F.f = x ∧ (x * 2 ^ F.f + m) % 2 ^ F.f = m ∧
      mag F (x * 2 ^ F.f + m) = ((2 ^ F.f + m : Nat) : ℚ) * (2 : ℚ) ^ ((x : Int) - F.bias - F.f) := by
  have hf : 0 < 2 ^ F.f := Nat.two_pow_pos _
  have h1 : (x * 2 ^ F.f + m) / 2 ^ F.f = x := by
    rw [mul_comm, Nat.mul_add_div hf, Nat.div_eq_of_lt hm, add_zero]
  have h2 : (x * 2 ^ F.f + m) % 2 ^ F.f = m := by rw [mul_comm, Nat.mul_add_mod, Nat.mod_eq_of_lt hm]
  refine ⟨h1, h2, ?_⟩
  unfold mag lastOf
  rw [h1, h2, if_neg hx]
  have : max 1 (x : Int) = x := by omega
  rw [this]

/-- A pattern below `(2^e - 1) * 2^f` is finite. -/
theorem finite_lt (F : BinFormat) {x m : Nat} (hx : x < 2 ^ F.e - 1) (hm : m < 2 ^ F.f) : x * 2 ^ F.f + m < 2 ^ (F.e + F.f) := by
  rw [pow_add]
  have : (x + 1) * 2 ^ F.f ≤ 2 ^ F.e * 2 ^ F.f := Nat.mul_le_mul_right _ (by omega)
  rw [add_mul, one_mul] at this
  omega

theorem expo_lt (F : BinFormat) {n : Nat} (hn : n < 2 ^ (F.e + F.f)) : n / 2 ^ F.f < 2 ^ F.e := by
  rw [Nat.div_lt_iff_lt_mul (Nat.two_pow_pos _), ← pow_add]
  exact hn

theorem mag_small (F : BinFormat) {n : Nat} (hn : n < 2 ^ F.f) : mag F n = (n : ℚ) * (2 : ℚ) ^ F.minExp := by
  unfold mag lastOf BinFormat.minExp
  rw [Nat.div_eq_of_lt hn, if_pos rfl, Nat.mod_eq_of_lt hn]
  simp

/-- Every number of the format is the magnitude of a finite pattern. -/
theorem exists_mag (F : BinFormat) {M : Nat} {e : Int} (h0 : 0 < M) (hM : M < 2 ^ (F.f + 1)) (h1 : F.minExp ≤ e) (h2 : e ≤ F.maxExp)
    (he : 1 ≤ F.e) :
    ∃ n, n < 2 ^ (F.e + F.f) ∧ n / 2 ^ F.f ≠ 2 ^ F.e - 1 ∧ mag F n = (M : ℚ) * (2 : ℚ) ^ e := by
  have hk1 := Nat.log2_self_le (by omega : M ≠ 0)
  have hk2 := @Nat.lt_log2_self M
  have hkf : M.log2 ≤ F.f := by
    have := (Nat.log2_lt (by omega : M ≠ 0)).mpr hM
    omega
  have hE : 2 ≤ 2 ^ F.e := by
    calc 2 = 2 ^ 1 := rfl
      _ ≤ 2 ^ F.e := Nat.pow_le_pow_right (by norm_num) he
  obtain ⟨d, hd⟩ := Int.eq_ofNat_of_zero_le (a := e - F.minExp) (by omega)
  by_cases hc : F.f - M.log2 ≤ d
  · -- a normal number
    obtain ⟨j, hj⟩ : ∃ j, j = F.f - M.log2 := ⟨_, rfl⟩
    have hS1 : 2 ^ F.f ≤ M * 2 ^ j := by
      calc 2 ^ F.f = 2 ^ M.log2 * 2 ^ j := by rw [← pow_add]; congr 1; omega
        _ ≤ M * 2 ^ j := Nat.mul_le_mul_right _ hk1
    have hS2 : M * 2 ^ j < 2 ^ F.f + 2 ^ F.f := by
      calc M * 2 ^ j < 2 ^ (M.log2 + 1) * 2 ^ j := Nat.mul_lt_mul_of_pos_right hk2 (Nat.two_pow_pos _)
        _ = 2 ^ (F.f + 1) := by rw [← pow_add]; congr 1; omega
        _ = _ := by rw [pow_succ]; ring
    obtain ⟨x, hx⟩ := Int.eq_ofNat_of_zero_le (a := e - j + F.bias + F.f) (by unfold BinFormat.minExp at hd; omega)
    have hx0 : x ≠ 0 := by unfold BinFormat.minExp at hd; omega
    have hxE : x < 2 ^ F.e - 1 := by
      unfold BinFormat.maxExp at h2
      have : (2 ^ F.e : Int) = ((2 ^ F.e : Nat) : Int) := by push_cast; rfl
      rw [this] at h2
      generalize 2 ^ F.e = E at *
      omega
    have hm : M * 2 ^ j - 2 ^ F.f < 2 ^ F.f := by omega
    obtain ⟨g1, g2, g3⟩ := mag_mk F hx0 hm
    refine ⟨x * 2 ^ F.f + (M * 2 ^ j - 2 ^ F.f), finite_lt F hxE hm, by rw [g1]; omega, ?_⟩
    rw [g3, Nat.add_sub_cancel' hS1]
    have : e = ((x : Int) - F.bias - F.f) + j := by omega
    rw [this, zpow_add₀ (by norm_num)]
    push_cast
    rw [zpow_natCast]
    ring
  · -- a subnormal number
    have hS : M * 2 ^ d < 2 ^ F.f := by
      calc M * 2 ^ d < 2 ^ (M.log2 + 1) * 2 ^ d := Nat.mul_lt_mul_of_pos_right hk2 (Nat.two_pow_pos _)
        _ = 2 ^ (M.log2 + 1 + d) := by rw [← pow_add]
        _ ≤ 2 ^ F.f := Nat.pow_le_pow_right (by norm_num) (by omega)
    refine ⟨M * 2 ^ d, ?_, ?_, ?_⟩
    · calc _ < 2 ^ F.f := hS
        _ ≤ 2 ^ (F.e + F.f) := Nat.pow_le_pow_right (by norm_num) (by omega)
    · rw [Nat.div_eq_of_lt hS]; omega
    · rw [mag_small F hS]
      have : e = F.minExp + d := by omega
      rw [this, zpow_add₀ (by norm_num)]
      push_cast
      rw [zpow_natCast]
      ring

/-- The finite values of the patterns are the numbers of the format. -/
theorem value_iff (F : BinFormat) (hF : F.Wide) (q : ℚ) :
    (∃ b, F.Pattern b ∧ F.value b = .num q) ↔ IsFloat F.precision F.minExp F.maxExp q := by
  constructor
  · rintro ⟨b, hb, hv⟩
    obtain ⟨s, n, hs, hn, rfl⟩ := pattern_cases F hb
    obtain ⟨hfin, rfl⟩ := value_num F hn hv
    have hx : n / 2 ^ F.f < 2 ^ F.e - 1 := by have := expo_lt F hn; omega
    have := mag_isFloat F hF hx
    split
    · rwa [one_mul]
    · rw [neg_one_mul]; exact isFloat_neg this
  · rintro ⟨m, e, hm, h1, h2, rfl⟩
    have he1 : 1 ≤ F.e := by have := hF.1; omega
    rcases Nat.eq_zero_or_pos m.natAbs with h0 | h0
    · have hz : m = 0 := Int.natAbs_eq_zero.mp h0
      refine ⟨0 * 2 ^ (F.e + F.f) + 0, pattern_mk F (Or.inl rfl) (Nat.two_pow_pos _), ?_⟩
      rw [value_mk F (Nat.two_pow_pos _), mag_zero, hz]
      · simp
      · rw [Nat.zero_div]
        have : 2 ^ 1 ≤ 2 ^ F.e := Nat.pow_le_pow_right (by norm_num) he1
        omega
    · have hM : m.natAbs < 2 ^ (F.f + 1) := by
        unfold BinFormat.precision at hm
        rw [Int.abs_eq_natAbs] at hm
        exact_mod_cast hm
      obtain ⟨n, hn, hfin, hv⟩ := exists_mag F h0 hM h1 h2 he1
      rcases le_total 0 m with hp | hp
      · refine ⟨0 * 2 ^ (F.e + F.f) + n, pattern_mk F (Or.inl rfl) hn, ?_⟩
        rw [value_mk F hn hfin, if_pos rfl, one_mul, hv]
        have : (m.natAbs : ℚ) = m := by rw [Nat.cast_natAbs, abs_of_nonneg hp]
        rw [this]
      · refine ⟨1 * 2 ^ (F.e + F.f) + n, pattern_mk F (Or.inr rfl) hn, ?_⟩
        rw [value_mk F hn hfin, if_neg (by norm_num), hv]
        have : (m.natAbs : ℚ) = -m := by rw [Nat.cast_natAbs, abs_of_nonpos hp]; push_cast; rfl
        rw [this]
        congr 1
        ring

theorem zpow_natCast_two (k : Nat) : (2 : ℚ) ^ (k : Int) = 2 ^ k := zpow_natCast _ _

/-- The fraction of a number of the format is a number of the format. -/
theorem isFloat_fract {p : Nat} {lo hi : Int} (hlh : lo ≤ hi) {q : ℚ} (h : IsFloat p lo hi q) (hq : 0 ≤ q) :
    IsFloat p lo hi (q - (⌊q⌋ : Int)) := by
  obtain ⟨m, e, hm, h1, h2, rfl⟩ := h
  rcases le_or_gt 0 e with he | he
  · obtain ⟨k, rfl⟩ := Int.eq_ofNat_of_zero_le he
    have : (m : ℚ) * 2 ^ (k : Int) = ((m * 2 ^ k : Int) : ℚ) := by push_cast; rw [zpow_natCast]
    rw [this, Int.floor_intCast, sub_self]
    exact ⟨0, lo, by rw [abs_zero]; positivity, le_refl _, hlh, by simp⟩
  · obtain ⟨k, hk⟩ := Int.eq_ofNat_of_zero_le (a := -e) (by omega)
    have hek : e = -(k : Int) := by omega
    subst hek
    have hpos : (0 : ℚ) < 2 ^ k := by positivity
    have e1 : (m : ℚ) * 2 ^ (-(k : Int)) = (m : ℚ) / ((2 ^ k : Nat) : ℚ) := by
      rw [zpow_neg, zpow_natCast, div_eq_mul_inv]; push_cast; rfl
    have hm0 : 0 ≤ m := by
      by_contra hneg
      have : (m : ℚ) < 0 := by exact_mod_cast (not_le.mp hneg)
      have := mul_neg_of_neg_of_pos this (two_zpow_pos (-(k : Int)))
      linarith
    refine ⟨m % ((2 ^ k : Nat) : Int), -(k : Int), ?_, h1, h2, ?_⟩
    · have hp0 : (0 : Int) < ((2 ^ k : Nat) : Int) := by positivity
      rw [abs_of_nonneg (Int.emod_nonneg _ hp0.ne')]
      rw [abs_of_nonneg hm0] at hm
      have h3 := mul_nonneg hp0.le (Int.ediv_nonneg hm0 hp0.le)
      have h4 := Int.mul_ediv_add_emod m ((2 ^ k : Nat) : Int)
      exact lt_of_le_of_lt (by linarith) hm
    · rw [e1, Rat.floor_intCast_div_natCast, zpow_neg, zpow_natCast]
      have := Int.mul_ediv_add_emod m ((2 ^ k : Nat) : Int)
      have h' : (m : ℚ) = ((2 ^ k : Nat) : ℚ) * ((m / ((2 ^ k : Nat) : Int) : Int) : ℚ) + ((m % ((2 ^ k : Nat) : Int) : Int) : ℚ) := by
        exact_mod_cast this.symm
      generalize (m / ((2 ^ k : Nat) : Int) : Int) = t at *
      generalize (m % ((2 ^ k : Nat) : Int) : Int) = r at *
      rw [h']
      push_cast
      field_simp
      ring

end Rumpy
