import Mathlib.Tactic.Ring
import Mathlib.Tactic.Linarith
import Mathlib.Tactic.FieldSimp
import Mathlib.Data.Rat.Floor
import Verif.Model.FloatOps
import Verif.Lemmas.Cast
import Verif.Lemmas.FloatOps
/-!
# Lemmas about rounding twice: to a wide format, then to a narrow one
-/

namespace Rumpy
open Spec

/-- The end of rounding: too large numbers become infinite. -/
def capped (p : Nat) (hi : Int) (r : ℚ) : Flt ℚ :=
  if (2 : ℚ) ^ (hi + p) ≤ r then .posInf else if r ≤ -(2 : ℚ) ^ (hi + p) then .negInf else .num r

theorem roundBin_capped (p : Nat) (lo hi : Int) (q : ℚ) :
    roundBin p lo hi q = capped p hi (roundEven (q / 2 ^ (max lo (Int.log 2 |q| - p + 1))) * (2 : ℚ) ^ (max lo (Int.log 2 |q| - p + 1))) := rfl

/-- Rounding to a whole number is the same for numbers on the same side of all halves. -/
theorem roundEven_same {t t' : ℚ} (h1 : ∀ n : Int, (n : ℚ) ≤ t → (n : ℚ) ≤ t') (h2 : ∀ n : Int, t ≤ n → t' ≤ n)
    (h3 : ∀ n : Int, t < n + 1 / 2 → t' < n + 1 / 2) (h4 : ∀ n : Int, (n : ℚ) + 1 / 2 < t → (n : ℚ) + 1 / 2 < t')
    (h5 : ∀ n : Int, t = n + 1 / 2 → t' = n + 1 / 2) : roundEven t' = roundEven t := by
  have f1 := Int.floor_le t
  have f2 := Int.lt_floor_add_one t
  generalize hn : ⌊t⌋ = n at *
  rcases lt_trichotomy t (n + 1 / 2) with h | h | h
  · have g1 := h1 n f1
    have g2 := h3 n h
    have hf : ⌊t'⌋ = n := by rw [Int.floor_eq_iff]; exact ⟨g1, by linarith⟩
    unfold roundEven
    rw [hf, hn]
    have c1 : t - n < 1 / 2 := by linarith
    have c2 : t' - n < 1 / 2 := by linarith
    simp only [c1, c2, if_true]
  · rw [h5 n h, ← h]
  · have g1 := h4 n h
    have g2 := h2 (n + 1) (by push_cast; exact f2.le)
    push_cast at g2
    have e : roundEven t = n + 1 := by
      rcases roundEven_cases t with ⟨-, hb⟩ | ⟨hc, -⟩
      · rw [hn] at hb; linarith
      · rw [hc, hn]
    rw [e]
    rcases eq_or_lt_of_le g2 with h' | h'
    · have := roundEven_int (n + 1)
      push_cast at this
      rw [h']; exact this
    · have hf : ⌊t'⌋ = n := by rw [Int.floor_eq_iff]; exact ⟨by linarith, h'⟩
      rcases roundEven_cases t' with ⟨-, hb⟩ | ⟨hc, -⟩
      · rw [hf] at hb; linarith
      · rw [hc, hf]

/-- Rounding to the multiples of `2^e`. -/
def onGrid (e : Int) (q : ℚ) : ℚ := roundEven (q / 2 ^ e) * (2 : ℚ) ^ e

theorem onGrid_exact {e : Int} {q : ℚ} {n : Int} (h : q = n * (2 : ℚ) ^ e) : onGrid e q = q := by
  unfold onGrid
  have : q / 2 ^ e = n := by rw [div_eq_iff (two_zpow_pos e).ne', h]
  rw [this, roundEven_int, ← h]

theorem roundEven_ge {t : ℚ} {n : Int} (h : (n : ℚ) ≤ t) : n ≤ roundEven t := by
  have hf : n ≤ ⌊t⌋ := Int.le_floor.2 h
  rcases roundEven_cases t with ⟨hc, -⟩ | ⟨hc, -⟩ <;> rw [hc] <;> omega

theorem roundEven_le {t : ℚ} {n : Int} (h : t ≤ n) : roundEven t ≤ n := by
  have hl := Int.floor_le t
  rcases roundEven_cases t with ⟨hc, -⟩ | ⟨hc, hb⟩ <;> rw [hc]
  · have : ((⌊t⌋ : Int) : ℚ) ≤ n := by linarith
    exact_mod_cast this
  · have : ((⌊t⌋ : Int) : ℚ) < n := by linarith
    have : ⌊t⌋ < n := by exact_mod_cast this
    omega

theorem onGrid_ge {e : Int} {q : ℚ} {n : Int} (h : n * (2 : ℚ) ^ e ≤ q) : n * (2 : ℚ) ^ e ≤ onGrid e q := by
  unfold onGrid
  apply mul_le_mul_of_nonneg_right _ (two_zpow_pos e).le
  have := roundEven_ge ((le_div_iff₀ (two_zpow_pos e)).2 h)
  exact_mod_cast this

theorem onGrid_le {e : Int} {q : ℚ} {n : Int} (h : q ≤ n * (2 : ℚ) ^ e) : onGrid e q ≤ n * (2 : ℚ) ^ e := by
  unfold onGrid
  apply mul_le_mul_of_nonneg_right _ (two_zpow_pos e).le
  have := roundEven_le ((div_le_iff₀ (two_zpow_pos e)).2 h)
  exact_mod_cast this

theorem onGrid_err (e : Int) (q : ℚ) : |q - onGrid e q| ≤ 2 ^ e / 2 := by
  have h2 : q - onGrid e q = (q / 2 ^ e - roundEven (q / 2 ^ e)) * 2 ^ e := by
    unfold onGrid
    rw [sub_mul, div_mul_cancel₀ _ (two_zpow_pos e).ne']
  have h3 : |q / 2 ^ e - roundEven (q / 2 ^ e)| ≤ 1 / 2 := by
    generalize q / 2 ^ e = t
    have hf := Int.floor_le t
    have hf' := Int.lt_floor_add_one t
    rcases roundEven_cases t with ⟨hc, hb⟩ | ⟨hc, hb⟩
    · rw [hc, abs_of_nonneg (by linarith)]; exact hb
    · rw [hc]
      push_cast
      rw [abs_of_nonpos (by linarith)]
      linarith
  rw [h2, abs_mul, abs_of_pos (two_zpow_pos e)]
  have := mul_le_mul_of_nonneg_right h3 (two_zpow_pos e).le
  linarith

/-- Rounding to a wide format does not disturb the rounding to a narrow one, unless it runs into a number halfway between
two numbers of the narrow format. -/
theorem double_round {p P : Nat} {lo hi Lo Hi : Int} (hp : 0 < p) (hpP : p + 1 ≤ P) (hLo : Lo + 1 ≤ lo) {q : ℚ} (hq0 : q ≠ 0)
    (hbig : |q| < 2 ^ (Hi + P - 1)) (hsmall : (2 : ℚ) ^ Lo ≤ |q|)
    (hmid : ∀ n : Int, q = (n + 1 / 2) * 2 ^ (max lo (Int.log 2 |q| - p + 1)) ∨
      2 ^ (max Lo (Int.log 2 |q| - P + 1)) / 2 < |q - (n + 1 / 2) * 2 ^ (max lo (Int.log 2 |q| - p + 1))|) :
    ∃ q', roundBin P Lo Hi q = .num q' ∧ roundBin p lo hi q' = roundBin p lo hi q := by
  obtain ⟨b1, b2⟩ := log_bounds hq0
  have hk1 := log_lt_of_lt hq0 hbig
  have hk2 : Lo ≤ Int.log 2 |q| := by
    have := lt_of_le_of_lt hsmall b2
    rw [two_zpow_lt_iff] at this
    omega
  rw [roundBin_capped P, roundBin_capped p lo hi q]
  generalize Int.log 2 |q| = k at *
  generalize he : max lo (k - p + 1) = e at *
  generalize hE : max Lo (k - P + 1) = E at *
  have hEe : E + 1 ≤ e := by omega
  have hEk : E ≤ k := by omega
  have hgrid : ∀ (n : Int) (g : Int), E ≤ g → ∃ m : Int, (n : ℚ) * 2 ^ g = m * 2 ^ E := fun n g h => zpow_multiple n h
  show ∃ q', capped P Hi (onGrid E q) = .num q' ∧ roundBin p lo hi q' = capped p hi (onGrid e q)
  have herr := onGrid_err E q
  have hge : ∀ (n g : Int), E ≤ g → (n : ℚ) * 2 ^ g ≤ q → (n : ℚ) * 2 ^ g ≤ onGrid E q := by
    intro n g hg h
    obtain ⟨m, hm⟩ := hgrid n g hg
    rw [hm] at h ⊢
    exact onGrid_ge h
  have hle : ∀ (n g : Int), E ≤ g → q ≤ (n : ℚ) * 2 ^ g → onGrid E q ≤ (n : ℚ) * 2 ^ g := by
    intro n g hg h
    obtain ⟨m, hm⟩ := hgrid n g hg
    rw [hm] at h ⊢
    exact onGrid_le h
  -- the rounded number keeps its binade, or reaches its end
  have habs : (2 : ℚ) ^ k ≤ |onGrid E q| ∧ |onGrid E q| ≤ 2 ^ (k + 1) := by
    rcases lt_or_gt_of_ne hq0 with hneg | hpos
    · rw [abs_of_neg hneg] at b1 b2
      have c1 := hle (-1) k hEk (by push_cast; linarith)
      have c2 := hge (-1) (k + 1) (by omega) (by push_cast; linarith)
      push_cast at c1 c2
      have := two_zpow_pos k
      rw [abs_of_neg (by linarith)]
      constructor <;> linarith
    · rw [abs_of_pos hpos] at b1 b2
      have c1 := hge 1 k hEk (by push_cast; linarith)
      have c2 := hle 1 (k + 1) (by omega) (by push_cast; linarith)
      push_cast at c1 c2
      have := two_zpow_pos k
      rw [abs_of_pos (by linarith)]
      constructor <;> linarith
  have hfin : (2 : ℚ) ^ (k + 1) < 2 ^ (Hi + P) := two_zpow_lt_iff.2 (by omega)
  have hnum : capped P Hi (onGrid E q) = .num (onGrid E q) := by
    unfold capped
    obtain ⟨d1, d2⟩ := abs_le.1 habs.2
    rw [if_neg (by linarith), if_neg (by linarith)]
  refine ⟨onGrid E q, hnum, ?_⟩
  -- the second rounding uses the same grid, or a grid that holds the number
  have hsec : roundBin p lo hi (onGrid E q) = capped p hi (onGrid e (onGrid E q)) := by
    rw [roundBin_capped]
    have hq0' : onGrid E q ≠ 0 := by
      intro hc
      rw [hc, abs_zero] at habs
      have := two_zpow_pos k
      linarith [habs.1]
    obtain ⟨l1, l2⟩ := log_bounds hq0'
    rcases eq_or_lt_of_le habs.2 with h | h
    · have hlog : Int.log 2 |onGrid E q| = k + 1 := by
        rw [h]
        exact_mod_cast Int.log_zpow (R := ℚ) (b := 2) (by norm_num) (k + 1)
      rw [hlog]
      by_cases hee : max lo (k + 1 - p + 1) = e
      · rw [hee]; rfl
      · have hm : ∀ g : Int, g ≤ k + 1 → onGrid g (onGrid E q) = onGrid E q := by
          intro g hg
          rcases abs_choice (onGrid E q) with hc | hc
          · rw [hc] at h
            obtain ⟨m, hm⟩ := zpow_multiple 1 hg
            exact onGrid_exact (n := m) (by rw [← hm, h]; simp)
          · rw [hc] at h
            obtain ⟨m, hm⟩ := zpow_multiple (-1) hg
            refine onGrid_exact (n := m) ?_
            rw [← hm, ← h]; push_cast; ring
        show capped p hi (onGrid (max lo (k + 1 - p + 1)) (onGrid E q)) = _
        rw [hm _ (by omega), hm _ (by omega)]
    · have hlog : Int.log 2 |onGrid E q| = k := by
        have u1 := log_lt_of_lt hq0' h
        have u2 := lt_of_le_of_lt habs.1 l2
        rw [two_zpow_lt_iff] at u2
        omega
      rw [hlog, he]; rfl
  rw [hsec]
  congr 1
  -- both numbers lie on the same side of everything halfway
  have hhalf : ∀ n : Int, ((n : ℚ) + 1 / 2) * 2 ^ e = ((2 * n + 1 : Int) : ℚ) * 2 ^ (e - 1) := by
    intro n
    rw [zpow_sub_one₀ (by norm_num)]
    push_cast
    ring
  have hne : ∀ n : Int, q ≠ (n + 1 / 2) * 2 ^ e → onGrid E q ≠ (n + 1 / 2) * 2 ^ e := by
    intro n h hc
    rcases hmid n with h' | h'
    · exact h h'
    · rw [hc] at herr; linarith
  have hpe := two_zpow_pos e
  show (roundEven (onGrid E q / 2 ^ e) : ℚ) * 2 ^ e = roundEven (q / 2 ^ e) * 2 ^ e
  congr 2
  apply roundEven_same
  · intro n h
    rw [le_div_iff₀ hpe] at h ⊢
    exact hge n e (by omega) h
  · intro n h
    rw [div_le_iff₀ hpe] at h ⊢
    exact hle n e (by omega) h
  · intro n h
    rw [div_lt_iff₀ hpe] at h ⊢
    refine lt_of_le_of_ne ?_ (hne n h.ne)
    rw [hhalf] at h ⊢
    exact hle _ _ (by omega) h.le
  · intro n h
    rw [lt_div_iff₀ hpe] at h ⊢
    refine lt_of_le_of_ne ?_ (hne n h.ne').symm
    rw [hhalf] at h ⊢
    exact hge _ _ (by omega) h.le
  · intro n h
    rw [div_eq_iff hpe.ne'] at h ⊢
    rw [hhalf] at h ⊢
    exact le_antisymm (hle _ _ (by omega) h.le) (hge _ _ (by omega) h.ge)

/-! ### The four operations -/

/-- A wide format in which sums, products and quotients of numbers of the narrow one can be rounded first. -/
structure Doubles (p : Nat) (lo hi : Int) (P : Nat) (Lo Hi : Int) : Prop where
  pos : 0 < p
  wide : 2 * p + 2 ≤ P
  range : lo ≤ hi
  low : Lo ≤ 2 * lo
  low' : Lo ≤ lo - hi - p
  low1 : Lo + p ≤ lo
  high : 2 * hi ≤ Hi
  high' : hi + p - lo ≤ Hi + P - 1
  high1 : hi + p + 1 ≤ Hi + P - 1

/-- A product is exact in the wide format. -/
theorem Doubles.mul {p P : Nat} {lo hi Lo Hi : Int} (h : Doubles p lo hi P Lo Hi) {a b : ℚ} (ha : IsFloat p lo hi a) (hb : IsFloat p lo hi b) :
    IsFloat P Lo Hi (a * b) := by
  obtain ⟨m, x, hm, x1, x2, rfl⟩ := ha
  obtain ⟨n, y, hn, y1, y2, rfl⟩ := hb
  have h1 := h.low
  have h2 := h.high
  refine ⟨m * n, x + y, ?_, by omega, by omega, ?_⟩
  · rw [abs_mul]
    calc |m| * |n| < 2 ^ p * 2 ^ p := mul_lt_mul'' hm hn (abs_nonneg _) (abs_nonneg _)
      _ = 2 ^ (p + p) := by rw [pow_add]
      _ ≤ 2 ^ P := pow_le_pow_right₀ (by norm_num) (by have := h.wide; omega)
  · rw [zpow_add₀ (by norm_num)]
    push_cast
    ring

/-- A number on the grid of its own binade is not changed. -/
theorem roundBin_onGrid {P : Nat} {Lo Hi : Int} {q : ℚ} (hb : |q| < 2 ^ (Hi + P)) {n : Int}
    (hn : q = n * (2 : ℚ) ^ (max Lo (Int.log 2 |q| - P + 1))) : roundBin P Lo Hi q = .num q := by
  rw [roundBin_capped]
  generalize max Lo (Int.log 2 |q| - P + 1) = E at *
  show capped P Hi (onGrid E q) = _
  rw [onGrid_exact hn]
  obtain ⟨d1, d2⟩ := abs_lt.1 hb
  unfold capped
  rw [if_neg (by linarith), if_neg (by linarith)]

theorem isFloat_nought (p : Nat) {lo hi : Int} (h : lo ≤ hi) : IsFloat p lo hi 0 := ⟨0, lo, by positivity, le_refl _, h, by simp⟩

theorem Doubles.add_aux {p P : Nat} {lo hi Lo Hi : Int} (h : Doubles p lo hi P Lo Hi) {m n x y : Int} (hm : |m| < 2 ^ p) (hn : |n| < 2 ^ p)
    (x1 : lo ≤ x) (x2 : x ≤ hi) (y1 : lo ≤ y) (hyx : y ≤ x) :
    ∃ q', roundBin P Lo Hi (m * (2 : ℚ) ^ x + n * (2 : ℚ) ^ y) = .num q' ∧
      roundBin p lo hi q' = roundBin p lo hi (m * (2 : ℚ) ^ x + n * (2 : ℚ) ^ y) := by
  obtain ⟨hp, hw, hr, l1, l2, l3, u1, u2, u3⟩ := h
  have hm' : |(m : ℚ)| ≤ 2 ^ p - 1 := by
    have : |m| ≤ 2 ^ p - 1 := by omega
    exact_mod_cast this
  have hn' : |(n : ℚ)| < 2 ^ p := by exact_mod_cast hn
  obtain ⟨a, ha⟩ : ∃ a, a = (m : ℚ) * (2 : ℚ) ^ x := ⟨_, rfl⟩
  obtain ⟨b, hb⟩ : ∃ b, b = (n : ℚ) * (2 : ℚ) ^ y := ⟨_, rfl⟩
  have ha' : |a| ≤ (2 ^ p - 1) * 2 ^ x := by
    rw [ha, abs_mul, abs_of_pos (two_zpow_pos x)]
    exact mul_le_mul_of_nonneg_right hm' (two_zpow_pos x).le
  have hb' : |b| < 2 ^ (p + y) := by
    rw [hb, abs_mul, abs_of_pos (two_zpow_pos y), zpow_add₀ (by norm_num), zpow_natCast]
    exact mul_lt_mul_of_pos_right hn' (two_zpow_pos y)
  rw [← ha, ← hb]
  by_cases hq0 : a + b = 0
  · rw [hq0]
    exact ⟨0, roundBin_exact (isFloat_nought P (by omega)), rfl⟩
  -- the size of the sum
  have hbig : |a + b| < 2 ^ (Hi + P - 1) := by
    have e1 : |a| < 2 ^ (hi + p) := by
      have : ((2 : ℚ) ^ p - 1) * 2 ^ x < 2 ^ p * 2 ^ x := mul_lt_mul_of_pos_right (by linarith) (two_zpow_pos x)
      have e2 : (2 : ℚ) ^ p * 2 ^ x = 2 ^ (p + x) := by rw [zpow_add₀ (by norm_num), zpow_natCast]
      have e3 : (2 : ℚ) ^ (p + x) ≤ 2 ^ (hi + p) := two_zpow_le (by omega)
      linarith
    have e4 : (2 : ℚ) ^ (p + y) ≤ 2 ^ (hi + p) := two_zpow_le (by omega)
    have e5 : (2 : ℚ) ^ (hi + p + 1) ≤ 2 ^ (Hi + P - 1) := two_zpow_le (by omega)
    have e6 : (2 : ℚ) ^ (hi + p + 1) = 2 * 2 ^ (hi + p) := by rw [zpow_add_one₀ (by norm_num)]; ring
    have := abs_add_le a b
    linarith
  have hsmall : (2 : ℚ) ^ Lo ≤ |a + b| := by
    obtain ⟨m', hm1⟩ := zpow_multiple m x1
    obtain ⟨n', hn1⟩ := zpow_multiple n y1
    have e1 : a + b = ((m' + n' : Int) : ℚ) * 2 ^ lo := by rw [ha, hb, hm1, hn1]; push_cast; ring
    have e2 : (m' + n' : Int) ≠ 0 := by
      intro hc
      rw [hc] at e1
      exact hq0 (by rw [e1]; simp)
    have e3 : (1 : ℚ) ≤ |((m' + n' : Int) : ℚ)| := by exact_mod_cast Int.one_le_abs e2
    rw [e1, abs_mul, abs_of_pos (two_zpow_pos lo)]
    have e4 : (2 : ℚ) ^ Lo ≤ 2 ^ lo := two_zpow_le (by omega)
    have := mul_le_mul_of_nonneg_right e3 (two_zpow_pos lo).le
    linarith
  obtain ⟨b1, b2⟩ := log_bounds hq0
  by_cases hyE : max Lo (Int.log 2 |a + b| - P + 1) ≤ y
  · obtain ⟨m', hm1⟩ := zpow_multiple m (le_trans hyE hyx)
    obtain ⟨n', hn1⟩ := zpow_multiple n hyE
    refine ⟨a + b, roundBin_onGrid (n := m' + n') ?_ ?_, rfl⟩
    · have : (2 : ℚ) ^ (Hi + P - 1) ≤ 2 ^ (Hi + P) := two_zpow_le (by omega)
      linarith
    · push_cast
      rw [add_mul, ← hm1, ← hn1, ha, hb]
  · refine double_round hp (by omega) (by omega) hq0 hbig hsmall ?_
    intro j
    right
    generalize Int.log 2 |a + b| = k at *
    have hy : y < k - P + 1 := by omega
    have hE : max Lo (k - P + 1) = k - P + 1 := by omega
    rw [hE]
    have hb2 : |b| < 2 ^ (k - p) / 4 := by
      have e1 : (2 : ℚ) ^ (p + y) ≤ 2 ^ (k - p - 2) := two_zpow_le (by omega)
      have e2 : (2 : ℚ) ^ (k - p - 2) = 2 ^ (k - p) / 4 := by rw [zpow_sub₀ (by norm_num)]; norm_num
      linarith
    have hxk : k - p + 1 ≤ x := by
      by_contra hc
      have e1 : (2 : ℚ) ^ x ≤ 2 ^ (k - p) := two_zpow_le (by omega)
      have e0 : (1 : ℚ) ≤ 2 ^ p := one_le_pow₀ (by norm_num)
      have e2 : ((2 : ℚ) ^ p - 1) * 2 ^ x ≤ (2 ^ p - 1) * 2 ^ (k - p) := mul_le_mul_of_nonneg_left e1 (by linarith)
      have e3 : (2 : ℚ) ^ p * 2 ^ (k - p) = 2 ^ k := by
        rw [← zpow_natCast, ← zpow_add₀ (by norm_num)]
        congr 1
        omega
      have e4 := abs_add_le a b
      have e5 := two_zpow_pos (k - p)
      have e6 : ((2 : ℚ) ^ p - 1) * 2 ^ (k - p) = 2 ^ k - 2 ^ (k - p) := by rw [sub_mul, e3, one_mul]
      linarith
    have hxe : max lo (k - p + 1) ≤ x := by omega
    obtain ⟨m', hm1⟩ := zpow_multiple m hxe
    have hek : (2 : ℚ) ^ (k - p + 1) ≤ 2 ^ (max lo (k - p + 1)) := two_zpow_le (by omega)
    generalize max lo (k - p + 1) = e at *
    have hac : (2 : ℚ) ^ e / 2 ≤ |a - (j + 1 / 2) * 2 ^ e| := by
      have e1 : a - (j + 1 / 2) * 2 ^ e = (((2 * (m' - j) - 1 : Int) : ℚ) / 2) * 2 ^ e := by
        rw [ha, hm1]; push_cast; ring
      have e2 : (1 : ℚ) ≤ |((2 * (m' - j) - 1 : Int) : ℚ)| := by
        have : (2 * (m' - j) - 1 : Int) ≠ 0 := by omega
        exact_mod_cast Int.one_le_abs this
      rw [e1, abs_mul, abs_of_pos (two_zpow_pos e), abs_div, abs_of_pos (show (0 : ℚ) < 2 by norm_num)]
      have := mul_le_mul_of_nonneg_right e2 (two_zpow_pos e).le
      linarith
    have htri : |a - (j + 1 / 2) * 2 ^ e| ≤ |a + b - (j + 1 / 2) * 2 ^ e| + |b| := by
      have e1 : a - (j + 1 / 2) * 2 ^ e = (a + b - (j + 1 / 2) * 2 ^ e) - b := by ring
      rw [e1]
      exact abs_sub _ _
    have e7 : (2 : ℚ) ^ (k - p + 1) = 2 * 2 ^ (k - p) := by rw [zpow_add_one₀ (by norm_num)]; ring
    have e8 : (2 : ℚ) ^ (k - P + 1) ≤ 2 ^ (k - p - 1) := two_zpow_le (by omega)
    have e9 : (2 : ℚ) ^ (k - p - 1) = 2 ^ (k - p) / 2 := by rw [zpow_sub_one₀ (by norm_num)]; ring
    have e10 := two_zpow_pos (k - p)
    linarith

/-- A sum may be rounded to the wide format first. -/
theorem Doubles.add {p P : Nat} {lo hi Lo Hi : Int} (h : Doubles p lo hi P Lo Hi) {a b : ℚ} (ha : IsFloat p lo hi a) (hb : IsFloat p lo hi b) :
    ∃ q', roundBin P Lo Hi (a + b) = .num q' ∧ roundBin p lo hi q' = roundBin p lo hi (a + b) := by
  obtain ⟨m, x, hm, x1, x2, rfl⟩ := ha
  obtain ⟨n, y, hn, y1, y2, rfl⟩ := hb
  rcases le_total y x with hc | hc
  · exact h.add_aux hm hn x1 x2 y1 hc
  · rw [add_comm]
    exact h.add_aux hn hm y1 y2 x1 hc

/-- A quotient may be rounded to the wide format first. -/
theorem Doubles.div {p P : Nat} {lo hi Lo Hi : Int} (h : Doubles p lo hi P Lo Hi) {a b : ℚ} (ha : IsFloat p lo hi a) (hb : IsFloat p lo hi b)
    (hb0 : b ≠ 0) : ∃ q', roundBin P Lo Hi (a / b) = .num q' ∧ roundBin p lo hi q' = roundBin p lo hi (a / b) := by
  obtain ⟨hp, hw, hr, l1, l2, l3, u1, u2, u3⟩ := h
  by_cases ha0 : a = 0
  · rw [ha0, zero_div]
    exact ⟨0, roundBin_exact (isFloat_nought P (by omega)), rfl⟩
  obtain ⟨m, x, hm, x1, x2, hax⟩ := ha
  obtain ⟨n, y, hn, y1, y2, hby⟩ := hb
  have hm0 : m ≠ 0 := by rintro rfl; exact ha0 (by rw [hax]; simp)
  have hn0 : n ≠ 0 := by rintro rfl; exact hb0 (by rw [hby]; simp)
  have hm1 : (1 : ℚ) ≤ |(m : ℚ)| := by exact_mod_cast Int.one_le_abs hm0
  have hn1 : (1 : ℚ) ≤ |(n : ℚ)| := by exact_mod_cast Int.one_le_abs hn0
  have hm2 : |(m : ℚ)| < 2 ^ (p : Int) := by rw [zpow_natCast]; exact_mod_cast hm
  have hn2 : |(n : ℚ)| < 2 ^ (p : Int) := by rw [zpow_natCast]; exact_mod_cast hn
  have hnq : (n : ℚ) ≠ 0 := by exact_mod_cast hn0
  have hq : a / b = m * (2 : ℚ) ^ (x - y) / n := by
    rw [hax, hby, zpow_sub₀ (by norm_num)]
    have := (two_zpow_pos y).ne'
    field_simp
  have hqn : |a / b| * |(n : ℚ)| = |(m : ℚ)| * 2 ^ (x - y) := by
    rw [hq, abs_div, abs_mul, abs_of_pos (two_zpow_pos (x - y)), div_mul_cancel₀ _ (abs_ne_zero.2 hnq)]
  have hq0 : a / b ≠ 0 := div_ne_zero ha0 hb0
  have habs := abs_pos.2 hq0
  have hz := two_zpow_pos (x - y)
  -- upper and lower bounds
  have hup : |a / b| < 2 ^ (p + (x - y)) := by
    rw [zpow_add₀ (by norm_num)]
    have e1 : |a / b| * 1 ≤ |a / b| * |(n : ℚ)| := mul_le_mul_of_nonneg_left hn1 habs.le
    have e2 : |(m : ℚ)| * 2 ^ (x - y) < 2 ^ (p : Int) * 2 ^ (x - y) := mul_lt_mul_of_pos_right hm2 hz
    linarith
  have hdown : (2 : ℚ) ^ (x - y - p) ≤ |a / b| := by
    by_contra hc
    push Not at hc
    have e1 : |a / b| * |(n : ℚ)| < 2 ^ (x - y - p) * 2 ^ (p : Int) :=
      mul_lt_mul'' hc hn2 habs.le (abs_nonneg _)
    rw [← zpow_add₀ (by norm_num), sub_add_cancel] at e1
    have e2 := mul_le_mul_of_nonneg_right hm1 hz.le
    linarith
  have hbig : |a / b| < 2 ^ (Hi + P - 1) := lt_of_lt_of_le hup (two_zpow_le (by omega))
  have hsmall : (2 : ℚ) ^ Lo ≤ |a / b| := le_trans (two_zpow_le (by omega)) hdown
  refine double_round hp (by omega) (by omega) hq0 hbig hsmall ?_
  have hlog := log_lt_of_lt hq0 hup
  intro j
  generalize Int.log 2 |a / b| = k at *
  obtain ⟨e, he⟩ : ∃ e, e = max lo (k - p + 1) := ⟨_, rfl⟩
  obtain ⟨E, hE⟩ : ∃ E, E = max Lo (k - P + 1) := ⟨_, rfl⟩
  rw [← he, ← hE]
  obtain ⟨g, hg⟩ : ∃ g, g = min (x - y) (e - 1) := ⟨_, rfl⟩
  have hgE : E - 1 ≤ g - p := by omega
  obtain ⟨s, hs⟩ := zpow_multiple m (show g ≤ x - y by omega)
  obtain ⟨t, ht⟩ := zpow_multiple (n * (2 * j + 1)) (show g ≤ e - 1 by omega)
  have hd : a / b - (j + 1 / 2) * 2 ^ e = ((s - t : Int) : ℚ) * 2 ^ g / n := by
    have e1 : (2 : ℚ) ^ e = 2 * 2 ^ (e - 1) := by rw [zpow_sub_one₀ (by norm_num)]; ring
    push_cast at ht ⊢
    rw [hq, hs, sub_mul, ← ht, e1]
    field_simp
  by_cases hst : s - t = 0
  · left
    rw [hst] at hd
    have : a / b - (j + 1 / 2) * 2 ^ e = 0 := by rw [hd]; simp
    linarith
  · right
    have e1 : (1 : ℚ) ≤ |((s - t : Int) : ℚ)| := by exact_mod_cast Int.one_le_abs hst
    rw [hd, abs_div, abs_mul, abs_of_pos (two_zpow_pos g), lt_div_iff₀ (abs_pos.2 hnq)]
    have e2 : (2 : ℚ) ^ E / 2 = 2 ^ (E - 1) := by rw [zpow_sub_one₀ (by norm_num)]; ring
    have e3 : (2 : ℚ) ^ (E - 1) ≤ 2 ^ (g - p) := two_zpow_le hgE
    have e4 : (2 : ℚ) ^ (E - 1) * |(n : ℚ)| < 2 ^ (g - p) * 2 ^ (p : Int) :=
      mul_lt_mul' e3 hn2 (abs_nonneg _) (two_zpow_pos _)
    rw [← zpow_add₀ (by norm_num), sub_add_cancel] at e4
    have e5 := mul_le_mul_of_nonneg_right e1 (two_zpow_pos g).le
    rw [e2]
    linarith

end Rumpy
