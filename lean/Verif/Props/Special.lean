import Verif.Lemmas.Special
import Verif.Props.Cast
import Verif.Props.Gcd
/-!
# C84: taking floats apart: `frexp`, `ldexp`, `modf`, `spacing`, `heaviside`
-/

namespace Props
open Spec Rumpy

/-- The formats of `float64` and `float32` are wide, and have the ranges used elsewhere. -/
example : binary64.Wide ∧ binary32.Wide ∧ binary64.precision = 53 ∧ binary64.minExp = -1074 ∧ binary64.maxExp = 971 ∧
    binary32.precision = 24 ∧ binary32.minExp = -149 ∧ binary32.maxExp = 104 :=
  ⟨⟨by decide, by decide, by decide +kernel⟩, ⟨by decide, by decide, by decide +kernel⟩, rfl, by decide +kernel, by decide +kernel, rfl,
    by decide +kernel, by decide +kernel⟩

/-- The specification of bit patterns and that of numbers with so many significant bits agree: the finite patterns
stand for exactly the numbers of the format. -/
theorem C84_patterns (F : BinFormat) (hF : F.Wide) (q : ℚ) :
    (∃ b, F.Pattern b ∧ F.value b = .num q) ↔ IsFloat F.precision F.minExp F.maxExp q := value_iff F hF q

/-- Multiplication by the power of two of the format's fraction is exact when the product is a number of the format. -/
def ScalesExactly (F : BinFormat) (times : Nat → Nat) : Prop :=
  ∀ b q, F.Pattern b → F.value b = .num q → (∃ c, F.Pattern c ∧ F.value c = .num (q * 2 ^ F.f)) →
    F.Pattern (times b) ∧ F.value (times b) = .num (q * 2 ^ F.f)

/-- There is such a multiplication. -/
example (F : BinFormat) : ∃ times, ScalesExactly F times := by
  classical
  refine ⟨fun b => if h : ∃ c, ∃ q, F.value b = .num q ∧ F.Pattern c ∧ F.value c = .num (q * 2 ^ F.f) then h.choose else 0, ?_⟩
  intro b q hb hq ⟨c, hc, hv⟩
  have h : ∃ c, ∃ q, F.value b = .num q ∧ F.Pattern c ∧ F.value c = .num (q * 2 ^ F.f) := ⟨c, q, hq, hc, hv⟩
  dsimp only
  rw [dif_pos h]
  obtain ⟨q', h1, h2, h3⟩ := h.choose_spec
  have : q' = q := Flt.num.inj (h1.symm.trans hq)
  rw [this] at h3
  exact ⟨h2, h3⟩

theorem bias_ge (F : BinFormat) (hF : F.Wide) : 3 ≤ F.bias ∧ F.bias < 2 ^ F.e - 1 := by
  unfold BinFormat.bias
  have h := hF.1
  have h1 : 2 ^ 2 ≤ 2 ^ (F.e - 1) := Nat.pow_le_pow_right (by norm_num) (by omega)
  have h2 : 2 ^ F.e = 2 * 2 ^ (F.e - 1) := by rw [← pow_succ']; congr 1; omega
  omega

/-- The case of a normal number. -/
theorem frexp_normal (F : BinFormat) (hF : F.Wide) (times : Nat → Nat) (k b : Nat) (hb : F.Pattern b) (q : ℚ)
    (hq : F.value b = .num q) (hx : F.expo b ≠ 0) :
    ∃ m i r, frexpScalar F times (k + 1) b = some (m, i) ∧ F.Pattern m ∧ F.value m = .num r ∧
      1 / 2 ≤ |r| ∧ |r| < 1 ∧ q = r * (2 : ℚ) ^ i := by
  obtain ⟨s, n, hs, hn, rfl⟩ := pattern_cases F hb
  obtain ⟨h1, h2, h3⟩ := fields F (s := s) hn
  obtain ⟨hfin, hqv⟩ := value_num F hn hq
  rw [h2] at hx
  obtain ⟨hb3, hbE⟩ := bias_ge F hF
  have hm : n % 2 ^ F.f < 2 ^ F.f := Nat.mod_lt _ (Nat.two_pow_pos _)
  obtain ⟨g1, g2, g3⟩ := mag_mk F (x := F.bias - 1) (by omega) hm
  have hlt := finite_lt F (x := F.bias - 1) (by omega) hm
  refine ⟨s * 2 ^ (F.e + F.f) + ((F.bias - 1) * 2 ^ F.f + n % 2 ^ F.f), ((n / 2 ^ F.f : Nat) : Int) - ((F.bias - 1 : Nat) : Int),
    (if s = 0 then 1 else -1) * mag F ((F.bias - 1) * 2 ^ F.f + n % 2 ^ F.f), ?_, pattern_mk F hs hlt, value_mk F hlt (by rw [g1]; omega), ?_, ?_, ?_⟩
  · unfold frexpScalar
    rw [h1, h2, h3, if_neg (by rintro (h | h); exact hfin h; exact hx h.1), if_neg hx, ← add_assoc]
  · have e : ((F.bias - 1 : Nat) : Int) - F.bias - F.f = -((F.f + 1 : Nat) : Int) := by push_cast; omega
    have : |(if s = 0 then (1 : ℚ) else -1) * mag F ((F.bias - 1) * 2 ^ F.f + n % 2 ^ F.f)| =
        ((2 ^ F.f + n % 2 ^ F.f : Nat) : ℚ) / 2 ^ (F.f + 1) := by
      rw [abs_mul, abs_of_nonneg (mag_nonneg F _), g3, e, zpow_neg, zpow_natCast, div_eq_mul_inv]
      split <;> simp
    rw [this, le_div_iff₀ (by positivity), pow_succ]
    push_cast
    have : (0 : ℚ) ≤ ((n % 2 ^ F.f : Nat) : ℚ) := Nat.cast_nonneg _
    push_cast at this
    linarith
  · have e : ((F.bias - 1 : Nat) : Int) - F.bias - F.f = -((F.f + 1 : Nat) : Int) := by push_cast; omega
    have : |(if s = 0 then (1 : ℚ) else -1) * mag F ((F.bias - 1) * 2 ^ F.f + n % 2 ^ F.f)| =
        ((2 ^ F.f + n % 2 ^ F.f : Nat) : ℚ) / 2 ^ (F.f + 1) := by
      rw [abs_mul, abs_of_nonneg (mag_nonneg F _), g3, e, zpow_neg, zpow_natCast, div_eq_mul_inv]
      split <;> simp
    rw [this, div_lt_one (by positivity)]
    have : 2 ^ F.f + n % 2 ^ F.f < 2 ^ (F.f + 1) := by rw [pow_succ]; omega
    exact_mod_cast this
  · rw [hqv, mul_assoc, g3, mul_assoc, ← zpow_add₀ (by norm_num)]
    unfold mag
    rw [if_neg hx]
    congr 3
    unfold lastOf
    omega

/-- `frexp` splits every finite float other than zero, subnormal or not, into a mantissa of at least one half and less
than one in magnitude and a power of two, whose product is the float, exactly. -/
theorem C84_frexp (F : BinFormat) (hF : F.Wide) (times : Nat → Nat) (ht : ScalesExactly F times) (b : Nat) (hb : F.Pattern b)
    (q : ℚ) (hq : F.value b = .num q) (h0 : q ≠ 0) :
    ∃ m i r, frexpScalar F times 2 b = some (m, i) ∧ F.Pattern m ∧ F.value m = .num r ∧
      1 / 2 ≤ |r| ∧ |r| < 1 ∧ q = r * (2 : ℚ) ^ i := by
  by_cases hx : F.expo b = 0
  swap
  · exact frexp_normal F hF times 1 b hb q hq hx
  obtain ⟨s, n, hs, hn, hbe⟩ := pattern_cases F hb
  have hfl := fields F (s := s) hn
  rw [← hbe] at hfl
  obtain ⟨h1, h2, h3⟩ := hfl
  have hval := value_num F hn (s := s) (q := q) (by rw [← hbe]; exact hq)
  obtain ⟨hfin, hqv⟩ := hval
  have hnf : n / 2 ^ F.f = 0 := h2.symm.trans hx
  have hnlt : n < 2 ^ F.f := (Nat.div_eq_zero_iff_lt (Nat.two_pow_pos _)).mp hnf
  have hn0 : 0 < n := by
    rcases Nat.eq_zero_or_pos n with h | h
    · exfalso; apply h0; rw [hqv, h, mag_zero, mul_zero]
    · exact h
  have hw := hF.2.2
  have hE : (2 ^ F.e : Int) = ((2 ^ F.e : Nat) : Int) := by push_cast; rfl
  have hqf : |q * 2 ^ F.f| = (n : ℚ) * (2 : ℚ) ^ (1 - F.bias : Int) := by
    rw [hqv, mag_small F hnlt, abs_mul, abs_mul, abs_mul]
    have : |(if s = 0 then (1 : ℚ) else -1)| = 1 := by split <;> simp
    rw [this, one_mul, abs_of_nonneg (Nat.cast_nonneg n), abs_of_pos (two_zpow_pos _), abs_of_pos (by positivity : (0 : ℚ) < 2 ^ F.f)]
    rw [mul_assoc, ← zpow_natCast (2 : ℚ) F.f, ← zpow_add₀ (by norm_num)]
    congr 2
    unfold BinFormat.minExp
    omega
  have hprod : ∃ c, F.Pattern c ∧ F.value c = .num (q * 2 ^ F.f) := by
    rw [value_iff F hF]
    refine ⟨(if s = 0 then 1 else -1) * (n : Int), 1 - F.bias, ?_, ?_, ?_, ?_⟩
    · have : |(if s = 0 then (1 : Int) else -1) * (n : Int)| = n := by
        rw [abs_mul, Nat.abs_cast]; split <;> simp
      rw [this]
      unfold BinFormat.precision
      have : n < 2 ^ (F.f + 1) := by rw [pow_succ]; omega
      exact_mod_cast this
    · unfold BinFormat.minExp; omega
    · unfold BinFormat.maxExp
      rw [hE]
      generalize 2 ^ F.e = E at *
      omega
    · rw [hqv, mag_small F hnlt]
      have : (2 : ℚ) ^ (1 - F.bias : Int) = (2 : ℚ) ^ F.minExp * 2 ^ F.f := by
        rw [← zpow_natCast (2 : ℚ) F.f, ← zpow_add₀ (by norm_num)]
        congr 1
        unfold BinFormat.minExp
        omega
      rw [this]
      push_cast
      ring
  obtain ⟨htp, htv⟩ := ht b q hb hq hprod
  have hxt : F.expo (times b) ≠ 0 := by
    intro hz
    obtain ⟨s', n', hs', hn', hbe'⟩ := pattern_cases F htp
    have hfl := fields F (s := s') hn'
    rw [← hbe'] at hfl
    obtain ⟨-, h2', -⟩ := hfl
    have hn'lt : n' < 2 ^ F.f := (Nat.div_eq_zero_iff_lt (Nat.two_pow_pos _)).mp (h2'.symm.trans hz)
    obtain ⟨-, hv'⟩ := value_num F hn' (s := s') (q := q * 2 ^ F.f) (by rw [← hbe']; exact htv)
    have : |q * 2 ^ F.f| = (n' : ℚ) * (2 : ℚ) ^ F.minExp := by
      rw [hv', abs_mul, mag_small F hn'lt, abs_of_nonneg (mul_nonneg (Nat.cast_nonneg n') (two_zpow_pos _).le)]
      split <;> simp
    rw [hqf] at this
    have e : (1 - F.bias : Int) = (F.f : Int) + F.minExp := by unfold BinFormat.minExp; omega
    rw [e, zpow_add₀ (by norm_num), ← mul_assoc] at this
    have h4 := mul_right_cancel₀ (two_zpow_pos F.minExp).ne' this
    rw [zpow_natCast] at h4
    have h5 : n * 2 ^ F.f = n' := by exact_mod_cast h4
    have : 1 * 2 ^ F.f ≤ n * 2 ^ F.f := Nat.mul_le_mul_right _ hn0
    omega
  obtain ⟨m, i, r, e1, e2, e3, e4, e5, e6⟩ := frexp_normal F hF times 0 (times b) htp _ htv hxt
  refine ⟨m, i - F.f, r, ?_, e2, e3, e4, e5, ?_⟩
  · rw [frexpScalar, if_neg, if_pos hx, e1]
    rintro (h | h)
    · rw [h2] at h; exact hfin h
    · rw [h3, Nat.mod_eq_of_lt hnlt] at h
      omega
  · rw [zpow_sub₀ (by norm_num), zpow_natCast, ← mul_div_assoc, ← e6]
    field_simp

/-- Zero, the infinities and NaN come back with exponent 0. -/
theorem C84_frexp_special (F : BinFormat) (times : Nat → Nat) (n b : Nat)
    (h : F.value b = .num 0 ∨ F.value b = .posInf ∨ F.value b = .negInf ∨ F.value b = .nan) :
    frexpScalar F times (n + 1) b = some (b, 0) := by
  unfold frexpScalar
  rw [if_pos]
  by_cases hx : F.expo b = 2 ^ F.e - 1
  · exact Or.inl hx
  · right
    unfold BinFormat.value at h
    rw [if_neg hx] at h
    rcases h with h | h | h | h
    · have h := Flt.num.inj h
      rcases mul_eq_zero.mp h with h | h
      · rcases mul_eq_zero.mp h with h | h
        · split at h <;> norm_num at h
        · have h : F.significand b = 0 := by exact_mod_cast h
          unfold BinFormat.significand at h
          split at h
          · next h' => exact ⟨h', h⟩
          · have := Nat.two_pow_pos F.f; omega
      · exact absurd h (two_zpow_pos _).ne'
    · cases h
    · cases h
    · cases h

/-- 12 is 0.75 times `2^4`. -/
example : frexpScalar binary64 id 2 0x4028000000000000 = some (0x3FE8000000000000, 4) ∧
    binary64.value 0x4028000000000000 = .num 12 ∧ binary64.value 0x3FE8000000000000 = .num (3 / 4) := by
  decide +kernel

theorem fltSub_num (p : Nat) (lo hi : Int) (x y : ℚ) : fltSub p lo hi (.num x) (.num y) = roundBin p lo hi (x - y) := rfl

/-- `spacing` of a finite float is the distance to the next larger float, wherever there is a larger finite float. -/
theorem C84_spacing_partial (F : BinFormat) (hF : F.Wide) (b : Nat) (hb : F.Pattern b) (q : ℚ) (hq : F.value b = .num q)
    (hlarger : ∃ c r, F.Pattern c ∧ F.value c = .num r ∧ q < r) :
    ∃ d, spacingScalar F b = .num d ∧ IsSpacing F q d := by
  have hE4 : 2 ^ 2 ≤ 2 ^ F.e := Nat.pow_le_pow_right (by norm_num) (by have := hF.1; omega)
  have hf2 : 2 ^ 1 ≤ 2 ^ F.f := Nat.pow_le_pow_right (by norm_num) hF.2.1
  have hH : 2 ^ (1 + F.e + F.f) = 2 ^ (F.e + F.f) + 2 ^ (F.e + F.f) := by rw [add_assoc, pow_add, pow_one]; ring
  have hfin' : ∀ {n m : Nat}, n ≤ m → m < 2 ^ (F.e + F.f) → m / 2 ^ F.f ≠ 2 ^ F.e - 1 → n < 2 ^ (F.e + F.f) ∧ n / 2 ^ F.f < 2 ^ F.e - 1 := by
    intro n m hnm hm hmf
    have h1 := expo_lt F hm
    have h2 : n / 2 ^ F.f ≤ m / 2 ^ F.f := Nat.div_le_div_right hnm
    omega
  -- the result, given the next magnitude
  have up : ∀ n, n + 1 < 2 ^ (F.e + F.f) → (n + 1) / 2 ^ F.f ≠ 2 ^ F.e - 1 → IsSpacing F (mag F n) ((2 : ℚ) ^ lastOf F (n / 2 ^ F.f)) := by
    intro n hn hfin
    refine ⟨two_zpow_pos _, ⟨0 * 2 ^ (F.e + F.f) + (n + 1), pattern_mk F (Or.inl rfl) hn, ?_⟩, ?_⟩
    · rw [value_mk F hn hfin, if_pos rfl, one_mul, mag_succ]
    · intro c r hc hr ⟨h1, h2⟩
      obtain ⟨s, m, hs, hm, rfl⟩ := pattern_cases F hc
      obtain ⟨-, rfl⟩ := value_num F hm hr
      rw [← mag_succ] at h2
      rcases hs with rfl | rfl
      · rw [if_pos rfl, one_mul] at h1 h2
        have a1 := (mag_strictMono F).lt_iff_lt.mp h1
        have a2 := (mag_strictMono F).lt_iff_lt.mp h2
        omega
      · rw [if_neg (by norm_num)] at h1
        have := mag_nonneg F m
        have := mag_nonneg F n
        linarith
  obtain ⟨s, n, hs, hn, rfl⟩ := pattern_cases F hb
  obtain ⟨hfin, hqv⟩ := value_num F hn hq
  have hrange : n / 2 ^ F.f < 2 ^ F.e - 1 := by have := expo_lt F hn; omega
  rcases hs with rfl | rfl
  · -- not negative
    rw [if_pos rfl, one_mul] at hqv
    subst hqv
    have hnext : n + 1 < 2 ^ (F.e + F.f) ∧ (n + 1) / 2 ^ F.f < 2 ^ F.e - 1 := by
      obtain ⟨c, r, hc, hr, hlt⟩ := hlarger
      obtain ⟨s, m, hs, hm, rfl⟩ := pattern_cases F hc
      obtain ⟨hmf, rfl⟩ := value_num F hm hr
      rcases hs with rfl | rfl
      · rw [if_pos rfl, one_mul] at hlt
        have := (mag_strictMono F).lt_iff_lt.mp hlt
        exact hfin' (by omega : n + 1 ≤ m) hm hmf
      · rw [if_neg (by norm_num)] at hlt
        have := mag_nonneg F m
        have := mag_nonneg F n
        linarith
    refine ⟨_, ?_, up n hnext.1 (by omega)⟩
    have hnp : nextPattern F (0 * 2 ^ (F.e + F.f) + n) = 0 * 2 ^ (F.e + F.f) + (n + 1) := by
      unfold nextPattern
      rw [hq, if_pos, Nat.mod_eq_of_lt (by omega)]
      · omega
      · have := mag_nonneg F n
        rcases lt_or_eq_of_le this with h | h
        · simp [fltLt, h]
        · simp [fltEq, ← h]
    unfold spacingScalar
    rw [hnp, hq, value_mk F hnext.1 (by omega), if_pos rfl, one_mul]
    rw [fltSub_num, mag_succ, add_sub_cancel_left, roundBin_exact (isFloat_pow F hF hrange)]
    dsimp only [fltAbs]
    rw [abs_of_pos (two_zpow_pos _)]
  · rw [if_neg (by norm_num), neg_one_mul] at hqv
    rcases Nat.eq_zero_or_pos n with rfl | hpos
    · -- negative zero
      rw [mag_zero, neg_zero] at hqv
      subst hqv
      have h1 : 0 + 1 < 2 ^ (F.e + F.f) := by
        calc 0 + 1 < 2 ^ F.f := by omega
          _ ≤ 2 ^ (F.e + F.f) := Nat.pow_le_pow_right (by norm_num) (by omega)
      have h2 : (0 + 1) / 2 ^ F.f = 0 := Nat.div_eq_of_lt (by omega)
      have hup := up 0 h1 (by omega)
      rw [mag_zero] at hup
      refine ⟨_, ?_, hup⟩
      have hnp : nextPattern F (1 * 2 ^ (F.e + F.f) + 0) = 1 * 2 ^ (F.e + F.f) + (0 + 1) := by
        unfold nextPattern
        rw [hq, if_pos (by simp [fltEq]), Nat.mod_eq_of_lt (by omega)]
      unfold spacingScalar
      rw [hnp, hq, value_mk F h1 (by omega), if_neg (by norm_num), neg_one_mul, mag_succ, mag_zero, zero_add]
      rw [fltSub_num, sub_zero, roundBin_exact (isFloat_neg (isFloat_pow F hF hrange))]
      dsimp only [fltAbs]
      rw [abs_neg, abs_of_pos (two_zpow_pos _)]
    · -- negative
      obtain ⟨n, rfl⟩ : ∃ k, n = k + 1 := ⟨n - 1, by omega⟩
      obtain ⟨hn', hrange'⟩ := hfin' (Nat.le_succ n) hn hfin
      subst hqv
      have hlt := mag_lt_succ F n
      have hnn := mag_nonneg F n
      refine ⟨(2 : ℚ) ^ lastOf F (n / 2 ^ F.f), ?_, two_zpow_pos _, ⟨1 * 2 ^ (F.e + F.f) + n, pattern_mk F (Or.inr rfl) hn', ?_⟩, ?_⟩
      · have hnp : nextPattern F (1 * 2 ^ (F.e + F.f) + (n + 1)) = 1 * 2 ^ (F.e + F.f) + n := by
          unfold nextPattern
          have hc : ¬((fltLt (Flt.num (0 : ℚ)) (.num (-mag F (n + 1))) || fltEq (Flt.num (-mag F (n + 1))) (.num (0 : ℚ))) = true) := by
            simp [fltLt, fltEq]
            constructor
            · linarith
            · intro h; linarith
          rw [hq, if_neg hc, if_neg (by omega)]
          have : 1 * 2 ^ (F.e + F.f) + (n + 1) + (2 ^ (1 + F.e + F.f) - 1) = (1 * 2 ^ (F.e + F.f) + n) + 2 ^ (1 + F.e + F.f) := by
            have := Nat.two_pow_pos (1 + F.e + F.f)
            omega
          rw [this, Nat.add_mod_right, Nat.mod_eq_of_lt (by omega)]
        unfold spacingScalar
        rw [hnp, hq, value_mk F hn' (by omega), if_neg (by norm_num), neg_one_mul]
        rw [fltSub_num]
        have : -mag F n - -mag F (n + 1) = (2 : ℚ) ^ lastOf F (n / 2 ^ F.f) := by rw [mag_succ]; ring
        rw [this, roundBin_exact (isFloat_pow F hF hrange')]
        dsimp only [fltAbs]
        rw [abs_of_pos (two_zpow_pos _)]
      · rw [value_mk F hn' (by omega), if_neg (by norm_num), mag_succ]
        congr 1
        ring
      · intro c r hc hr ⟨g1, g2⟩
        have e : -mag F (n + 1) + (2 : ℚ) ^ lastOf F (n / 2 ^ F.f) = -mag F n := by rw [mag_succ]; ring
        rw [e] at g2
        obtain ⟨s, m, hs, hm, rfl⟩ := pattern_cases F hc
        obtain ⟨-, rfl⟩ := value_num F hm hr
        rcases hs with rfl | rfl
        · rw [if_pos rfl, one_mul] at g2
          have := mag_nonneg F m
          linarith
        · rw [if_neg (by norm_num), neg_one_mul] at g1 g2
          have a1 := (mag_strictMono F).lt_iff_lt.mp (neg_lt_neg_iff.mp g1)
          have a2 := (mag_strictMono F).lt_iff_lt.mp (neg_lt_neg_iff.mp g2)
          omega

/-- The hypotheses hold for 1, whose spacing is `2^-52`. -/
example : binary64.Pattern 0x3FF0000000000000 ∧ binary64.value 0x3FF0000000000000 = .num 1 ∧
    (∃ c r, binary64.Pattern c ∧ binary64.value c = .num r ∧ 1 < r) ∧
    spacingScalar binary64 0x3FF0000000000000 = .num (1 / 2 ^ 52) :=
  ⟨by unfold BinFormat.Pattern; decide +kernel, by decide +kernel, ⟨0x4000000000000000, 2, by unfold BinFormat.Pattern; decide +kernel, by decide +kernel, by norm_num⟩,
    by decide +kernel⟩

/-- NaN gives NaN. -/
theorem C84_spacing_nan (F : BinFormat) (b : Nat) (h : F.value b = .nan) : spacingScalar F b = .nan := by
  unfold spacingScalar
  rw [h]
  cases F.value (nextPattern F b) <;> rfl

/-- NumPy's spacing has the sign of its argument, so that the spacing of `-x` is that of `x` negated, and is NaN for an
infinity.  Here the spacing of -1 is `2^-53`, half that of 1, and the spacing of minus infinity is infinity. -/
theorem C84_spacing_counterexample :
    binary64.value 0xBFF0000000000000 = .num (-1) ∧ spacingScalar binary64 0xBFF0000000000000 = .num (1 / 2 ^ 53) ∧
    binary64.value 0xFFF0000000000000 = .negInf ∧ spacingScalar binary64 0xFFF0000000000000 = .posInf := by
  decide +kernel

/-- `modf` of a finite float: an integer part and a fraction, both with the sign of the number, that add up to the
number exactly. -/
theorem C84_modf_partial (p : Nat) (lo hi : Int) (hlh : lo ≤ hi) (q : ℚ) (h : IsFloat p lo hi q) :
    ∃ (r : ℚ) (t : Int), modfScalar p lo hi (.num q) = (.num r, .num t) ∧ r + t = q ∧ |r| < 1 ∧
      (0 ≤ q → 0 ≤ r ∧ 0 ≤ t) ∧ (q ≤ 0 → r ≤ 0 ∧ t ≤ 0) := by
  unfold modfScalar fltTrunc fltSub
  dsimp only
  rcases le_or_gt 0 q with hq | hq
  · rw [if_pos hq, roundBin_exact (isFloat_fract hlh h hq)]
    have h1 := Int.floor_le q
    have h2 := Int.lt_floor_add_one q
    have h3 : (0 : Int) ≤ ⌊q⌋ := Int.floor_nonneg.mpr hq
    refine ⟨_, _, rfl, by ring, ?_, fun _ => ⟨by linarith, h3⟩, ?_⟩
    · rw [abs_of_nonneg (by linarith)]; linarith
    · intro h0
      have : q = 0 := le_antisymm h0 hq
      subst this
      simp
  · have e : q - ((⌈q⌉ : Int) : ℚ) = -(-q - ((⌊-q⌋ : Int) : ℚ)) := by rw [Int.floor_neg]; push_cast; ring
    have hf := isFloat_neg (isFloat_fract hlh (isFloat_neg h) (by linarith : 0 ≤ -q))
    rw [← e] at hf
    rw [if_neg (not_le.mpr hq), roundBin_exact hf]
    have h1 := Int.le_ceil q
    have h2 := Int.ceil_lt_add_one q
    refine ⟨_, _, rfl, by ring, ?_, fun h0 => absurd h0 (not_le.mpr hq), fun _ => ⟨by linarith, Int.ceil_le.mpr (by push_cast; linarith)⟩⟩
    rw [abs_of_nonpos (by linarith)]; linarith

/-- Three and three quarters. -/
example : IsFloat 53 (-1074) 971 (15 / 4) ∧ modfScalar 53 (-1074) 971 (.num (15 / 4)) = (.num (3 / 4), .num 3) ∧
    modfScalar 53 (-1074) 971 (.num (-15 / 4)) = (.num (-3 / 4), .num (-3)) :=
  ⟨⟨15, -2, by norm_num, by norm_num, by norm_num, by norm_num⟩, by decide +kernel, by decide +kernel⟩

/-- The fraction of an infinity is 0 in NumPy, and NaN here. -/
theorem C84_modf_counterexample : modfScalar 53 (-1074) 971 .posInf = (.nan, .posInf) := by decide +kernel

/-- What is used of `powi`: the powers of two with exponents up to the bias are exact. -/
def ExactPowers (F : BinFormat) (powi : Int → Flt ℚ) : Prop := ∀ i : Int, |i| ≤ F.bias → powi i = .num (2 ^ i)

/-- `ldexp` with an exponent up to the bias (1023, or 127 for `float32`): the product with the power of two, rounded
once.  Larger exponents are missing: they are wrong. -/
theorem C84_ldexp_partial (F : BinFormat) (hF : F.Wide) (powi : Int → Flt ℚ) (hp : ExactPowers F powi) (i : Int) (hi : |i| ≤ F.bias) :
    (∀ q, IsLdexp F.precision F.minExp F.maxExp q i (ldexpScalar F.precision F.minExp F.maxExp powi (.num q) i)) ∧
    ldexpScalar F.precision F.minExp F.maxExp powi .posInf i = .posInf ∧
    ldexpScalar F.precision F.minExp F.maxExp powi .negInf i = .negInf ∧
    ldexpScalar F.precision F.minExp F.maxExp powi .nan i = .nan := by
  have h2 := two_zpow_pos i
  have hpi := hp i hi
  have hr : F.minExp ≤ F.maxExp := by
    have := lastOf_range F hF (x := 0) (by have := hF.2.2; omega)
    omega
  refine ⟨?_, ?_, ?_, ?_⟩
  · intro q
    unfold IsLdexp ldexpScalar
    rw [hpi]
    exact toFormat_rounding (by unfold BinFormat.precision; omega) hr (.num (q * 2 ^ i))
  · unfold ldexpScalar; rw [hpi]; simp [fltMul, h2.ne', h2]
  · unfold ldexpScalar; rw [hpi]; simp [fltMul, h2.ne', h2]
  · unfold ldexpScalar; rw [hpi]; rfl

/-- The powers of two of the library, with infinity above the range and zero below. -/
def powiOf (i : Int) : Flt ℚ := if 1023 < i then .posInf else if i < -1023 then .num 0 else .num (2 ^ i)

example : ExactPowers binary64 powiOf ∧ ldexpScalar 53 (-1074) 971 powiOf (.num 3) 2 = .num 12 := by
  refine ⟨?_, by decide +kernel⟩
  intro i hi
  have hb : ((binary64.bias : Nat) : Int) = 1023 := rfl
  rw [hb] at hi
  have := abs_le.mp hi
  unfold powiOf
  rw [if_neg (by omega), if_neg (by omega)]

/-- With larger exponents the power of two overflows or vanishes although the product does not: zero gives NaN, a small
number gives infinity, a large number gives 0.  An `int64` exponent is cut to 32 bits, so that `2^32` counts as 0. -/
theorem C84_ldexp_counterexample :
    ldexpScalar 53 (-1074) 971 powiOf (.num 0) 2000 = .nan ∧
    ldexpScalar 53 (-1074) 971 powiOf (.num (1 / 2 ^ 1074)) 1074 = .posInf ∧
    ldexpScalar 53 (-1074) 971 powiOf (.num (2 ^ 1000)) (-1080) = .num 0 ∧
    ¬IsLdexp 53 (-1074) 971 (1 / 2 ^ 1074) 1074 .posInf ∧ ¬IsLdexp 53 (-1074) 971 (2 ^ 1000) (-1080) (.num 0) ∧
    ldexpScalar 53 (-1074) 971 powiOf (.num 3) (exponentOf (2 ^ 32)) = .num 3 := by
  refine ⟨by decide +kernel, by decide +kernel, by decide +kernel, ?_, ?_, by decide +kernel⟩
  · intro h
    have h1 : (1 / 2 ^ 1074 : ℚ) * 2 ^ (1074 : Int) = 1 := by
      have : (2 : ℚ) ^ (1074 : Int) = 2 ^ 1074 := by exact_mod_cast zpow_natCast (2 : ℚ) 1074
      rw [this, one_div, inv_mul_cancel₀ (pow_ne_zero _ (by norm_num))]
    unfold IsLdexp at h
    rw [h1] at h
    have := h 1 ⟨1, 0, by norm_num, by norm_num, by norm_num, by norm_num⟩
    exact absurd this (lt_irrefl _)
  · intro h
    have h1 : (2 ^ 1000 : ℚ) * 2 ^ (-1080 : Int) = 2 ^ (-80 : Int) := by
      have : (2 : ℚ) ^ 1000 = 2 ^ (1000 : Int) := by exact_mod_cast (zpow_natCast (2 : ℚ) 1000).symm
      rw [this, ← zpow_add₀ (by norm_num)]
      rfl
    unfold IsLdexp at h
    rw [h1] at h
    have := h.2 (2 ^ (-80 : Int)) ⟨1, -80, by norm_num, by norm_num, by norm_num, by simp⟩
    rw [sub_self, sub_zero, abs_zero, abs_of_pos (two_zpow_pos _)] at this
    exact absurd (two_zpow_pos (-80)) (not_lt.mpr this)

/-- `heaviside` of everything but NaN. -/
theorem C84_heaviside_partial (x h0 : Flt ℚ) (hx : x ≠ .nan) : heavisideScalar x h0 = heavisideSpec x h0 := by
  cases x with
  | nan => exact absurd rfl hx
  | negInf => simp [heavisideScalar, heavisideSpec, fltLt]
  | posInf => simp [heavisideScalar, heavisideSpec, fltLt, fltEq]
  | num q => simp [heavisideScalar, heavisideSpec, fltLt, fltEq]

example : heavisideScalar (.num 0) (.num (1 / 2)) = .num (1 / 2) ∧ heavisideScalar (.num (-3)) (.num (1 / 2)) = .num 0 := by decide +kernel

/-- NaN counts as positive. -/
theorem C84_heaviside_counterexample : heavisideScalar .nan (.num 0) = .num 1 ∧ heavisideSpec .nan (.num 0) = .nan := by
  decide +kernel

/-- The loops over one array are right for arrays whose elements lie one after the other. -/
theorem C84_array_partial {α β : Type} (f : α → β) (mem : Int → α) (v : View) (hw : v.WF) (hc : v.cFlag = true) :
    (rawMap f mem v).Is ⟨v.shape, fun i => f ((v.denote mem).get i)⟩ := by
  refine ⟨rfl, ?_⟩
  apply eq_toList
  · simp [rawMap, sizeOf_eq]
  · intro idx hin
    have hin' : InShape v.shape idx := hin
    have h1 := cFlag_addr hw hc hin'
    have hlt := rank_lt hin'
    simp only [rawMap, List.getElem?_map, sizeOf_eq, List.getElem?_range hlt, Option.map_some]
    show some (f _) = some (f (mem (v.addr idx)))
    rw [h1]

/-- The same for `ldexp` with exponents of the same shape. -/
theorem C84_ldexp_array_partial {α β γ : Type} (f : α → Int → γ) (conv : β → Int) (memX : Int → α) (memI : Int → β) (x i : View)
    (hx : x.WF) (hi : i.WF) (hcx : x.cFlag = true) (hci : i.cFlag = true) (hs : x.shape = i.shape) :
    (ldexpLoop f conv memX memI x i).Is ⟨x.shape, fun k => f ((x.denote memX).get k) (conv ((i.denote memI).get k))⟩ := by
  refine ⟨rfl, ?_⟩
  apply eq_toList
  · simp [ldexpLoop, sizeOf_eq]
  · intro idx hin
    have hin' : InShape x.shape idx := hin
    have h1 := cFlag_addr hx hcx hin'
    have h2 := cFlag_addr hi hci (hs ▸ hin')
    have hlt := rank_lt hin'
    simp only [ldexpLoop, List.getElem?_map, sizeOf_eq, List.getElem?_range hlt, Option.map_some]
    show some (f _ _) = some (f (memX (x.addr idx)) (conv (memI (i.addr idx))))
    rw [h1, h2, ← hs]

/-- `heaviside` of two arrays of one shape and dtype. -/
theorem C84_heaviside_array_partial (memX memH : Int → Flt ℚ) (x h : View) (hx : x.WF) (hh : h.WF) (hcx : x.cFlag = true)
    (hch : h.cFlag = true) (hs : x.shape = h.shape) (hi : x.item = h.item) (hn : ∀ i, InShape x.shape i → (x.denote memX).get i ≠ .nan) :
    (pairwiseTyped heavisideScalar memX memH x h).Is
      ⟨x.shape, fun i => heavisideSpec ((x.denote memX).get i) ((h.denote memH).get i)⟩ :=
  (C51_array_partial heavisideScalar memX memH x h hx hh hcx hch hs hi).congr
    ⟨rfl, fun idx hidx => C84_heaviside_partial _ _ (hn idx hidx)⟩

/-- The elements 1.5 and 3.75 of a view with a gap: `modf` reads the element in the gap in place of the second. -/
theorem C84_array_counterexample :
    let gaps : View := ⟨0, [2], [16], 8, false, false⟩
    let mem : Int → Flt ℚ := fun x => if x = 0 then .num (3 / 2) else if x = 8 then .num 9 else if x = 16 then .num (15 / 4) else .nan
    gaps.WF ∧ (rawMap (fun x => (modfScalar 53 (-1074) 971 x).2) mem gaps).data = [.num 1, .num 9] ∧
    (⟨[2], fun i => (modfScalar 53 (-1074) 971 ((gaps.denote mem).get i)).2⟩ : Nd (Flt ℚ)).toList = [.num 1, .num 3] := by
  refine ⟨⟨rfl, by decide, by decide⟩, by decide +kernel, by decide +kernel⟩

/-- A scalar exponent is not broadcast: the exponent of the second element is read past the end of the array. -/
theorem C84_broadcast_counterexample :
    let two := View.fresh [2] 8
    let one := View.fresh [1] 8
    let memX : Int → Flt ℚ := fun _ => .num 1
    let memI : Int → Int := fun x => if x = 0 then 3 else -7
    (ldexpLoop (fun _ i => i) exponentOf memX memI two one).data = [3, -7] := by
  decide +kernel

end Props
