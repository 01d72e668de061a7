import Verif.Model.Calendar
import Mathlib.Tactic.IntervalCases
import Mathlib.Tactic.Linarith
import Mathlib.Tactic.Ring
import Mathlib.Order.Monotone.Basic
import Mathlib.Data.Int.SuccPred
import Mathlib.Order.SuccPred.Archimedean
import Mathlib.Tactic.NormNum
/-!
# Lemmas: the day number formulas
-/

namespace Rumpy
open Spec

theorem wrap64_eq {x : Int} (h1 : -2 ^ 63 ≤ x) (h2 : x < 2 ^ 63) : wrap64 x = x := by
  unfold wrap64
  exact Int.bmod_eq_of_le (by omega) (by omega)

theorem wrap64_range (x : Int) : -2 ^ 63 ≤ wrap64 x ∧ wrap64 x < 2 ^ 63 := by
  unfold wrap64
  have h1 := @Int.le_bmod x (2 ^ 64) (by decide)
  have h2 := @Int.bmod_lt x (2 ^ 64) (by decide)
  constructor
  · exact h1
  · exact h2

theorem wrap64_wrap_add (x y : Int) : wrap64 (wrap64 x + y) = wrap64 (x + y) := by
  unfold wrap64
  simp

theorem wrap64_wrap_mul (x y : Int) : wrap64 (wrap64 x * y) = wrap64 (x * y) := by
  unfold wrap64
  simp

/-- Day number of a date, as an integer formula. -/
def dayOf (y m d : Int) : Int :=
  let y' := if m ≤ 2 then y - 1 else y
  let m' := if m ≤ 2 then m + 12 else m
  365 * y' + y' / 4 - y' / 100 + y' / 400 + (153 * (m' - 3) + 2) / 5 + d - 1 - 719468

theorem tdiv_pos_const {a b : Int} (h : 0 ≤ a) : a.tdiv b = a / b := Int.tdiv_eq_ediv_of_nonneg h

theorem tdiv_neg' {a b : Int} (h : a ≤ 0) : a.tdiv b = -((-a) / b) := by
  rw [← Int.tdiv_eq_ediv_of_nonneg (by omega : 0 ≤ -a), Int.neg_tdiv, Int.neg_neg]

theorem floor_400 (z : Int) : (if z ≥ 0 then z.tdiv 400 else (z - 399).tdiv 400) = z / 400 := by
  split
  · rw [tdiv_pos_const (by omega)]
  · rw [tdiv_neg' (by omega)]; omega

theorem floor_146097 (z : Int) : (if z ≥ 0 then z.tdiv 146097 else (z - 146096).tdiv 146097) = z / 146097 := by
  split
  · rw [tdiv_pos_const (by omega)]
  · rw [tdiv_neg' (by omega)]; omega

theorem ymdToDays_eq {y m d : Int} (hy : -2 ^ 63 + 400 ≤ y) (hy2 : y < 2 ^ 63) (hm : 1 ≤ m) (hm2 : m ≤ 12) :
    ymdToDays y m d = wrap64 (dayOf y m d) := by
  unfold ymdToDays dayOf
  dsimp only
  rw [wrap64_eq (x := y - 1) (by omega) (by omega), wrap64_eq (x := m + 12) (by omega) (by omega)]
  generalize hy' : (if m ≤ 2 then y - 1 else y) = y'
  generalize hm' : (if m ≤ 2 then m + 12 else m) = m'
  have b1 : -2 ^ 63 + 399 ≤ y' ∧ y' < 2 ^ 63 := by rw [← hy']; split <;> omega
  have b2 : 3 ≤ m' ∧ m' ≤ 14 := by rw [← hm']; split <;> omega
  rw [wrap64_eq (x := y' - 399) (by omega) (by omega), floor_400,
    wrap64_eq (x := 153 * (m' - 3) + 2) (by omega) (by omega),
    wrap64_eq (x := y' - y' / 400 * 400) (by omega) (by omega), tdiv_pos_const (by omega), tdiv_pos_const (by omega),
    tdiv_pos_const (by omega)]
  congr 1
  omega

/-- Year of the 400-year era from the day of the era. -/
theorem yoe_eq {c q r doy doe : Int} (hc : 0 ≤ c ∧ c ≤ 3) (hq : 0 ≤ q ∧ q ≤ 24) (hr : 0 ≤ r ∧ r ≤ 3)
    (hd : 0 ≤ doy ∧ doy ≤ 365) (hl : doy = 365 → r = 3 ∧ (q ≠ 24 ∨ c = 3))
    (hdoe : doe = 36524 * c + 1461 * q + 365 * r + doy) :
    (doe - doe / 1460 + doe / 36524 - doe / 146096) / 365 = 100 * c + 4 * q + r := by
  obtain ⟨δ, hδ, h1⟩ : ∃ δ : Int, ((δ = 0 ∧ 24 * c + q + 365 * r + doy < 1460) ∨
      (δ = 1 ∧ 1460 ≤ 24 * c + q + 365 * r + doy)) ∧ doe / 1460 = 25 * c + q + δ := by
    by_cases h : 24 * c + q + 365 * r + doy < 1460
    · refine ⟨0, Or.inl ⟨rfl, h⟩, ?_⟩
      rw [Int.ediv_eq_iff_of_pos (by decide)]; omega
    · refine ⟨1, Or.inr ⟨rfl, by omega⟩, ?_⟩
      rw [Int.ediv_eq_iff_of_pos (by decide)]; omega
  have h2 : doe / 36524 - doe / 146096 = c := by
    by_cases h : doe = 146096
    · rw [h]; norm_num; omega
    · have e1 : doe / 36524 = c := by rw [Int.ediv_eq_iff_of_pos (by decide)]; omega
      have e2 : doe / 146096 = 0 := by rw [Int.ediv_eq_iff_of_pos (by decide)]; omega
      omega
  have e : doe - doe / 1460 + doe / 36524 - doe / 146096 = 36500 * c + 1460 * q + 365 * r + doy - δ := by
    rw [h1]; omega
  rw [e, Int.ediv_eq_iff_of_pos (by decide)]
  omega

theorem month_day_eq {m' d doy : Int} (hm : 3 ≤ m' ∧ m' ≤ 14) (hd1 : 1 ≤ d)
    (hd2 : d ≤ if m' = 14 then 29 else if m' = 4 ∨ m' = 6 ∨ m' = 9 ∨ m' = 11 then 30 else 31)
    (he : doy = (153 * (m' - 3) + 2) / 5 + d - 1) :
    (5 * doy + 2) / 153 = m' - 3 ∧ doy - (153 * (m' - 3) + 2) / 5 + 1 = d ∧ 0 ≤ doy ∧ doy ≤ 365 ∧
      (doy = 365 → m' = 14 ∧ d = 29) := by
  obtain ⟨m0, m1⟩ := hm
  subst he
  interval_cases m' <;> norm_num at hd2 ⊢ <;> omega

theorem year_split {e c q r y : Int} (he : y = 400 * e + 100 * c + 4 * q + r) (hc : 0 ≤ c ∧ c ≤ 3)
    (hq : 0 ≤ q ∧ q ≤ 24) (hr : 0 ≤ r ∧ r ≤ 3) : y / 4 = 100 * e + 25 * c + q ∧ y / 100 = 4 * e + c ∧ y / 400 = e := by
  refine ⟨?_, ?_, ?_⟩ <;> rw [Int.ediv_eq_iff_of_pos (by decide)] <;> omega

theorem leap_split {e c q r y : Int} (he : y = 400 * e + 100 * c + 4 * q + r) (hc : 0 ≤ c ∧ c ≤ 3)
    (hq : 0 ≤ q ∧ q ≤ 24) (hr : 0 ≤ r ∧ r ≤ 3) (h : Leap (y + 1)) : r = 3 ∧ (q ≠ 24 ∨ c = 3) := by
  obtain ⟨h1, h2⟩ := h
  have hr3 : r = 3 := by omega
  refine ⟨hr3, ?_⟩
  subst hr3
  rcases h2 with h2 | h2
  · left
    rintro rfl
    apply h2
    have : y + 1 = 100 * (4 * e + c + 1) := by omega
    rw [this, Int.mul_emod_right]
  · right
    obtain ⟨t, ht⟩ := Int.dvd_of_emod_eq_zero h2
    have : 400 * (t - e) = 100 * c + 4 * q + 4 := by omega
    omega

theorem doe_bounds {c q r doy : Int} (hc : 0 ≤ c ∧ c ≤ 3) (hq : 0 ≤ q ∧ q ≤ 24) (hr : 0 ≤ r ∧ r ≤ 3)
    (hd : 0 ≤ doy ∧ doy ≤ 365) : 0 ≤ 36524 * c + 1461 * q + 365 * r + doy ∧
      36524 * c + 1461 * q + 365 * r + doy < 146097 := by omega

theorem yoe_div {c q r : Int} (hc : 0 ≤ c ∧ c ≤ 3) (hq : 0 ≤ q ∧ q ≤ 24) (hr : 0 ≤ r ∧ r ≤ 3) :
    0 ≤ 100 * c + 4 * q + r ∧ (100 * c + 4 * q + r) / 4 = 25 * c + q ∧ (100 * c + 4 * q + r) / 100 = c := by
  refine ⟨by omega, ?_, ?_⟩ <;> rw [Int.ediv_eq_iff_of_pos (by decide)] <;> omega

theorem nonneg_of_div {x : Int} (h : 0 ≤ x / 365) : 0 ≤ x := by omega

/-- The computation of `days_to_ymd` on a day number given by its parts. -/
theorem civil_core {e c q r doy m' d : Int} (hc : 0 ≤ c ∧ c ≤ 3) (hq : 0 ≤ q ∧ q ≤ 24) (hr : 0 ≤ r ∧ r ≤ 3)
    (hm : 3 ≤ m' ∧ m' ≤ 14) (hd : 0 ≤ doy ∧ doy ≤ 365) (hl : doy = 365 → r = 3 ∧ (q ≠ 24 ∨ c = 3))
    (g1 : (5 * doy + 2) / 153 = m' - 3) (g2 : doy - (153 * (m' - 3) + 2) / 5 + 1 = d) {z : Int}
    (hz : z = 146097 * e + (36524 * c + 1461 * q + 365 * r + doy)) :
    let era := z / 146097
    let doe := z - era * 146097
    let yoe := (doe - doe.tdiv 1460 + doe.tdiv 36524 - doe.tdiv 146096).tdiv 365
    let doy := doe - (365 * yoe + yoe.tdiv 4 - yoe.tdiv 100)
    let mp := (5 * doy + 2).tdiv 153
    yoe + era * 400 = 400 * e + 100 * c + 4 * q + r ∧ mp = m' - 3 ∧ doy - (153 * mp + 2).tdiv 5 + 1 = d := by
  have hyoe := yoe_eq hc hq hr hd hl rfl
  obtain ⟨hge, hlt⟩ := doe_bounds hc hq hr hd
  obtain ⟨n0, n1, n2⟩ := yoe_div hc hq hr
  obtain ⟨D, hD⟩ : ∃ D, D = 36524 * c + 1461 * q + 365 * r + doy := ⟨_, rfl⟩
  rw [← hD] at hyoe hlt hge hz
  have hera : z / 146097 = e := by
    clear hyoe hl g1 g2 n1 n2 hD
    rw [hz, Int.ediv_eq_iff_of_pos (by decide)]; omega
  have hdoe : z - e * 146097 = D := by rw [hz]; ring
  have hnum : 0 ≤ D - D / 1460 + D / 36524 - D / 146096 := by
    apply nonneg_of_div
    rw [hyoe]
    exact n0
  have hd' : D - (365 * (100 * c + 4 * q + r) + (100 * c + 4 * q + r) / 4 - (100 * c + 4 * q + r) / 100) = doy := by
    rw [n1, n2, hD]; ring
  dsimp only
  rw [hera, hdoe, tdiv_pos_const hge, tdiv_pos_const hge, tdiv_pos_const hge, tdiv_pos_const hnum, hyoe,
    tdiv_pos_const n0, tdiv_pos_const n0, hd', tdiv_pos_const (a := 5 * doy + 2) (by clear hl; omega), g1,
    tdiv_pos_const (a := 153 * (m' - 3) + 2) (by clear hl; omega)]
  exact ⟨by ring, rfl, g2⟩

theorem dayOf_parts (y m d : Int) : ∃ y' m' : Int, (if m ≤ 2 then y - 1 else y) = y' ∧
    (if m ≤ 2 then m + 12 else m) = m' ∧
    dayOf y m d + 719468 = 365 * y' + y' / 4 - y' / 100 + y' / 400 + ((153 * (m' - 3) + 2) / 5 + d - 1) := by
  refine ⟨_, _, rfl, rfl, ?_⟩
  unfold dayOf
  dsimp only
  ring

theorem dim_shift {y m m' d : Int} (v1 : 1 ≤ m) (v2 : m ≤ 12) (hm' : (if m ≤ 2 then m + 12 else m) = m')
    (v4 : d ≤ daysInMonth y m) :
    d ≤ if m' = 14 then 29 else if m' = 4 ∨ m' = 6 ∨ m' = 9 ∨ m' = 11 then 30 else 31 := by
  unfold daysInMonth at v4
  subst hm'
  by_cases hl : Leap y
  · simp only [if_pos hl] at v4
    interval_cases m <;> norm_num at v4 ⊢ <;> omega
  · simp only [if_neg hl] at v4
    interval_cases m <;> norm_num at v4 ⊢ <;> omega

theorem leap_shift {y m m' y' d : Int} (v1 : 1 ≤ m) (v2 : m ≤ 12) (hm' : (if m ≤ 2 then m + 12 else m) = m')
    (hy' : (if m ≤ 2 then y - 1 else y) = y') (v4 : d ≤ daysInMonth y m) (e1 : m' = 14) (e2 : d = 29) : Leap (y' + 1) := by
  have : m = 2 := by split at hm' <;> omega
  subst this
  unfold daysInMonth at v4
  have : y' + 1 = y := by rw [← hy']; simp
  rw [this]
  by_contra hn
  simp only [if_true, if_neg hn] at v4
  omega

theorem year_parts (y' : Int) : ∃ e c q r : Int, y' = 400 * e + 100 * c + 4 * q + r ∧ (0 ≤ c ∧ c ≤ 3) ∧
      (0 ≤ q ∧ q ≤ 24) ∧ (0 ≤ r ∧ r ≤ 3) := by
  refine ⟨y' / 400, y' % 400 / 100, y' % 400 % 100 / 4, y' % 400 % 100 % 4, ?_, ?_, ?_, ?_⟩
  · have h1 := Int.mul_ediv_add_emod y' 400
    have h2 := Int.mul_ediv_add_emod (y' % 400) 100
    have h3 := Int.mul_ediv_add_emod (y' % 400 % 100) 4
    linarith
  · have := Int.emod_nonneg y' (by decide : (400 : Int) ≠ 0)
    have := Int.emod_lt_of_pos y' (by decide : (0 : Int) < 400)
    generalize y' % 400 = a at *
    omega
  · generalize y' % 400 = a at *
    have := Int.emod_nonneg a (by decide : (100 : Int) ≠ 0)
    have := Int.emod_lt_of_pos a (by decide : (0 : Int) < 100)
    generalize a % 100 = b at *
    omega
  · generalize y' % 400 % 100 = a at *
    omega

/-- `days_to_ymd` after the shift of the epoch, without wrap-around. -/
def civil (z : Int) : Date :=
  let era := if z ≥ 0 then z.tdiv 146097 else (z - 146096).tdiv 146097
  let doe := z - era * 146097
  let yoe := (doe - doe.tdiv 1460 + doe.tdiv 36524 - doe.tdiv 146096).tdiv 365
  let y := yoe + era * 400
  let doy := doe - (365 * yoe + yoe.tdiv 4 - yoe.tdiv 100)
  let mp := (5 * doy + 2).tdiv 153
  let d := doy - (153 * mp + 2).tdiv 5 + 1
  let m := if mp < 10 then mp + 3 else mp - 9
  let y := if m ≤ 2 then y + 1 else y
  ⟨y, m, d⟩

theorem daysToYmd_civil (days : Int) : daysToYmd days = civil (wrap64 (days + 719468)) := rfl

theorem civil_dayOf {y m d : Int} (hv : Date.Valid ⟨y, m, d⟩) : civil (dayOf y m d + 719468) = ⟨y, m, d⟩ := by
  obtain ⟨v1, v2, v3, v4⟩ := hv
  dsimp only at v1 v2 v3 v4
  obtain ⟨y', m', hy', hm', hz⟩ := dayOf_parts y m d
  have b2 : 3 ≤ m' ∧ m' ≤ 14 := by
    clear hz v4
    rw [← hm']; split <;> omega
  obtain ⟨g1, g2, g3, g4, g5⟩ := month_day_eq b2 v3 (dim_shift v1 v2 hm' v4) rfl
  obtain ⟨e, c, q, r, he, hc, hq, hr⟩ := year_parts y'
  obtain ⟨d1, d2, d3⟩ := year_split he hc hq hr
  have hl : (153 * (m' - 3) + 2) / 5 + d - 1 = 365 → r = 3 ∧ (q ≠ 24 ∨ c = 3) := fun h =>
    leap_split he hc hq hr (leap_shift v1 v2 hm' hy' v4 (g5 h).1 (g5 h).2)
  have hz' : dayOf y m d + 719468 =
      146097 * e + (36524 * c + 1461 * q + 365 * r + ((153 * (m' - 3) + 2) / 5 + d - 1)) := by
    rw [hz, d1, d2, d3, he]; ring
  obtain ⟨k1, k2, k3⟩ := civil_core hc hq hr b2 ⟨g3, g4⟩ hl g1 g2 hz'
  unfold civil
  dsimp only
  rw [floor_146097, k1, k3, k2]
  have hmm : (if m' - 3 < 10 then m' - 3 + 3 else m' - 3 - 9) = m := by
    clear g1 g2 hz hz' k1 k2 k3 d1 d2 d3
    rw [← hm']; split <;> split <;> omega
  rw [hmm, ← he]
  congr 1
  clear g1 g2 hz hz' k1 k2 k3 d1 d2 d3
  split at hy' <;> rename_i h
  · rw [if_pos h]; omega
  · rw [if_neg h]; omega

theorem div_step (y k : Int) (hk : 0 < k) : y / k - (y - 1) / k = if y % k = 0 then 1 else 0 := by
  have h0 := Int.mul_ediv_add_emod y k
  have h1 := Int.emod_nonneg y (by omega : k ≠ 0)
  have h2 := Int.emod_lt_of_pos y hk
  split
  · rename_i h
    have : (y - 1) / k = y / k - 1 := by
      rw [Int.ediv_eq_iff_of_pos hk]
      constructor <;> nlinarith
    omega
  · have : (y - 1) / k = y / k := by
      rw [Int.ediv_eq_iff_of_pos hk]
      constructor
      · have : 1 ≤ y % k := by omega
        nlinarith
      · nlinarith
    omega

theorem leap_step (y : Int) :
    (y / 4 - y / 100 + y / 400) - ((y - 1) / 4 - (y - 1) / 100 + (y - 1) / 400) = if Leap y then 1 else 0 := by
  have h4 := div_step y 4 (by decide)
  have h100 := div_step y 100 (by decide)
  have h400 := div_step y 400 (by decide)
  have e : (y / 4 - y / 100 + y / 400) - ((y - 1) / 4 - (y - 1) / 100 + (y - 1) / 400) =
      (y / 4 - (y - 1) / 4) - (y / 100 - (y - 1) / 100) + (y / 400 - (y - 1) / 400) := by ring
  rw [e, h4, h100, h400]
  unfold Leap
  have k1 : y % 400 = 0 → y % 100 = 0 := fun h => by omega
  have k2 : y % 100 = 0 → y % 4 = 0 := fun h => by omega
  by_cases a : y % 4 = 0
  · by_cases b : y % 100 = 0
    · by_cases c : y % 400 = 0 <;> simp [a, b, c]
    · have c : ¬ y % 400 = 0 := fun c => b (k1 c)
      simp [a, b, c]
  · have b : ¬ y % 100 = 0 := fun b => a (k2 b)
    have c : ¬ y % 400 = 0 := fun c => b (k1 c)
    simp [a, b, c]

/-- Day number of a date. -/
def dateDay (d : Date) : Int := dayOf d.year d.month d.day

theorem next_valid {d : Date} (h : d.Valid) : d.next.Valid := by
  obtain ⟨h1, h2, h3, h4⟩ := h
  unfold Date.next
  split
  · exact ⟨h1, h2, by simp only; omega, by simp only; omega⟩
  · have hpos : ∀ y m : Int, 1 ≤ daysInMonth y m := by
      intro y m
      unfold daysInMonth
      repeat' split
      all_goals omega
    split
    · exact ⟨by simp only; omega, by simp only; omega, by simp only; omega, hpos _ _⟩
    · exact ⟨by simp only; omega, by simp only; omega, by simp only; omega, hpos _ _⟩

theorem dateDay_next {d : Date} (h : d.Valid) : dateDay d.next = dateDay d + 1 := by
  obtain ⟨y, m, d⟩ := d
  obtain ⟨h1, h2, h3, h4⟩ := h
  dsimp only at h1 h2 h3 h4
  unfold Date.next dateDay
  dsimp only
  split
  · unfold dayOf; dsimp only; ring
  · rename_i hd
    have hd : d = daysInMonth y m := by omega
    subst hd
    clear h3 h4 hd
    have hl := leap_step y
    unfold daysInMonth dayOf
    by_cases hle : Leap y
    · simp only [if_pos hle] at hl ⊢
      interval_cases m <;> norm_num <;> linarith
    · simp only [if_neg hle] at hl ⊢
      interval_cases m <;> norm_num <;> linarith

theorem dayNumber_dateDay {n : Int} {d : Date} (h : DayNumber n d) : d.Valid ∧ dateDay d = n := by
  induction h with
  | epoch => decide
  | forward _ ih => exact ⟨next_valid ih.1, by rw [dateDay_next ih.1, ih.2]⟩
  | backward _ hv ih => exact ⟨hv, by have := dateDay_next hv; omega⟩

/-- Every date but one in the past has a day before. -/
theorem exists_prev {d : Date} (h : d.Valid) : ∃ p : Date, p.Valid ∧ p.next = d := by
  obtain ⟨y, m, d⟩ := d
  obtain ⟨h1, h2, h3, h4⟩ := h
  dsimp only at h1 h2 h3 h4
  have hpos : ∀ y m : Int, 1 ≤ daysInMonth y m := by
    intro y m
    unfold daysInMonth
    repeat' split
    all_goals omega
  by_cases hd : d = 1
  · subst hd
    by_cases hm : m = 1
    · subst hm
      refine ⟨⟨y - 1, 12, 31⟩, ⟨(by decide : (1 : Int) ≤ 12), (by decide : (12 : Int) ≤ 12), (by decide : (1 : Int) ≤ 31), ?_⟩, ?_⟩
      · have : daysInMonth (y - 1) 12 = 31 := by unfold daysInMonth; norm_num
        simp only [this]; decide
      · have : daysInMonth (y - 1) 12 = 31 := by unfold daysInMonth; norm_num
        unfold Date.next
        simp [this]
    · refine ⟨⟨y, m - 1, daysInMonth y (m - 1)⟩, ⟨by simp only; omega, by simp only; omega, hpos _ _, le_refl _⟩, ?_⟩
      unfold Date.next
      rw [if_neg (by simp), if_pos (by simp only; omega)]
      simp
  · refine ⟨⟨y, m, d - 1⟩, ⟨h1, h2, by simp only; omega, by simp only; omega⟩, ?_⟩
    unfold Date.next
    rw [if_pos (by simp only; omega)]
    simp

theorem exists_dayNumber (n : Int) : ∃ d, DayNumber n d := by
  induction n with
  | zero => exact ⟨_, .epoch⟩
  | succ i ih => obtain ⟨d, hd⟩ := ih; exact ⟨_, .forward hd⟩
  | pred i ih =>
    obtain ⟨d, hd⟩ := ih
    obtain ⟨p, hp, rfl⟩ := exists_prev (dayNumber_dateDay hd).1
    exact ⟨p, .backward hd hp⟩

theorem dayOf_inj {a b : Date} (ha : a.Valid) (hb : b.Valid) (h : dateDay a = dateDay b) : a = b := by
  have e1 := civil_dayOf ha
  have e2 := civil_dayOf hb
  unfold dateDay at h
  rw [h, e2] at e1
  exact e1.symm

theorem dayNumber_iff {n : Int} {d : Date} : DayNumber n d ↔ d.Valid ∧ dateDay d = n := by
  refine ⟨dayNumber_dateDay, ?_⟩
  rintro ⟨hv, rfl⟩
  obtain ⟨e, he⟩ := exists_dayNumber (dateDay d)
  obtain ⟨h1, h2⟩ := dayNumber_dateDay he
  have := dayOf_inj h1 hv h2
  subst this
  exact he

theorem dayNumber_civil (n : Int) : DayNumber n (civil (n + 719468)) := by
  obtain ⟨d, hd⟩ := exists_dayNumber n
  obtain ⟨h1, h2⟩ := dayNumber_dateDay hd
  rw [← h2, dateDay, civil_dayOf h1, ← dateDay, h2]
  exact hd

theorem daysToYmd_spec {n : Int} (h1 : -2 ^ 63 ≤ n) (h2 : n + 719468 < 2 ^ 63) : DayNumber n (daysToYmd n) := by
  rw [daysToYmd_civil, wrap64_eq (by omega) h2]
  exact dayNumber_civil n

theorem dayNumber_unique {n : Int} {a b : Date} (ha : DayNumber n a) (hb : DayNumber n b) : a = b :=
  dayOf_inj (dayNumber_dateDay ha).1 (dayNumber_dateDay hb).1
    ((dayNumber_dateDay ha).2.trans (dayNumber_dateDay hb).2.symm)

theorem dayNumber_unique' {m n : Int} {d : Date} (ha : DayNumber m d) (hb : DayNumber n d) : m = n :=
  (dayNumber_dateDay ha).2.symm.trans (dayNumber_dateDay hb).2

/-- Years and day numbers grow together. -/
theorem dayOf_year_bounds {y m d : Int} (hv : Date.Valid ⟨y, m, d⟩) :
    (0 < y → 365 * (y - 1) - 719468 ≤ dayOf y m d) ∧ (y < 0 → dayOf y m d ≤ 365 * y + 365 - 719468) := by
  obtain ⟨v1, v2, v3, v4⟩ := hv
  dsimp only at v1 v2 v3 v4
  obtain ⟨y', m', hy', hm', hz⟩ := dayOf_parts y m d
  have b2 : 3 ≤ m' ∧ m' ≤ 14 := by
    clear hz v4
    rw [← hm']; split <;> omega
  obtain ⟨_, _, g3, g4, _⟩ := month_day_eq b2 v3 (dim_shift v1 v2 hm' v4) rfl
  generalize (153 * (m' - 3) + 2) / 5 + d - 1 = doy at *
  have hy : y - 1 ≤ y' ∧ y' ≤ y := by rw [← hy']; split <;> omega
  clear hy' hm' v4 v3 v2 v1 b2
  constructor
  · intro h
    have : 0 ≤ y' / 4 - y' / 100 := by omega
    have : 0 ≤ y' / 400 := by omega
    omega
  · intro h
    have : y' / 4 - y' / 100 ≤ 0 := by omega
    have : y' / 400 ≤ 0 := by omega
    omega

/-- Day on which month `i` (counted from 1970-01) begins. -/
def monthStart (i : Int) : Int := dayOf (1970 + i / 12) (1 + i % 12) 1

theorem dayOf_month (y m d : Int) : dayOf y m d = dayOf y m 1 + (d - 1) := by
  unfold dayOf; dsimp only; ring

theorem monthStart_next (i : Int) : monthStart (i + 1) = monthStart i + daysInMonth (1970 + i / 12) (1 + i % 12) := by
  have h1 : 0 ≤ i % 12 := by omega
  have h2 : i % 12 < 12 := by omega
  have hv : Date.Valid ⟨1970 + i / 12, 1 + i % 12, daysInMonth (1970 + i / 12) (1 + i % 12)⟩ := by
    refine ⟨by simp only; omega, by simp only; omega, ?_, le_refl _⟩
    simp only
    unfold daysInMonth
    repeat' split
    all_goals omega
  have h := dateDay_next hv
  unfold Date.next dateDay at h
  rw [if_neg (by simp)] at h
  dsimp only at h
  rw [dayOf_month _ _ (daysInMonth _ _)] at h
  unfold monthStart
  split at h
  · have e1 : (i + 1) / 12 = i / 12 := by omega
    have e2 : 1 + (i + 1) % 12 = 1 + i % 12 + 1 := by omega
    rw [e1, e2, h]; ring
  · have e1 : 1970 + (i + 1) / 12 = 1970 + i / 12 + 1 := by omega
    have e2 : 1 + (i + 1) % 12 = 1 := by omega
    rw [e1, e2, h]; ring

theorem daysInMonth_pos (y m : Int) : 1 ≤ daysInMonth y m := by
  unfold daysInMonth
  repeat' split
  all_goals omega

theorem monthStart_strictMono : StrictMono monthStart :=
  strictMono_int_of_lt_succ fun i => by
    have := daysInMonth_pos (1970 + i / 12) (1 + i % 12)
    rw [monthStart_next]; omega

theorem yearStart (v : Int) : dayOf (1970 + v) 1 1 = monthStart (12 * v) := by
  unfold monthStart
  have e1 : 12 * v / 12 = v := by omega
  have e2 : 1 + 12 * v % 12 = 1 := by omega
  rw [e1, e2]

/-- Month number of a date. -/
def monthIndex (d : Date) : Int := (d.year - 1970) * 12 + (d.month - 1)

theorem monthIndex_parts {d : Date} (h : d.Valid) : monthIndex d / 12 = d.year - 1970 ∧ monthIndex d % 12 = d.month - 1 := by
  obtain ⟨h1, h2, _, _⟩ := h
  unfold monthIndex
  omega

theorem month_contains {n : Int} {d : Date} (h : DayNumber n d) :
    monthStart (monthIndex d) ≤ n ∧ n < monthStart (monthIndex d + 1) := by
  obtain ⟨hv, rfl⟩ := dayNumber_iff.1 h
  obtain ⟨e1, e2⟩ := monthIndex_parts hv
  rw [monthStart_next]
  unfold monthStart
  rw [e1, e2]
  obtain ⟨h1, h2, h3, h4⟩ := hv
  have ey : 1970 + (d.year - 1970) = d.year := by ring
  have em : 1 + (d.month - 1) = d.month := by ring
  rw [ey, em]
  unfold dateDay
  rw [dayOf_month d.year d.month d.day]
  omega

theorem year_contains {n : Int} {d : Date} (h : DayNumber n d) :
    monthStart (12 * (d.year - 1970)) ≤ n ∧ n < monthStart (12 * (d.year - 1970) + 12) := by
  obtain ⟨h1, h2⟩ := month_contains h
  obtain ⟨⟨v1, v2, _, _⟩, _⟩ := dayNumber_iff.1 h
  have m1 := monthStart_strictMono.monotone (show 12 * (d.year - 1970) ≤ monthIndex d by unfold monthIndex; omega)
  have m2 := monthStart_strictMono.monotone
    (show monthIndex d + 1 ≤ 12 * (d.year - 1970) + 12 by unfold monthIndex; omega)
  omega

theorem monthStart_dayNumber (i : Int) : DayNumber (monthStart i) ⟨1970 + i / 12, 1 + i % 12, 1⟩ := by
  rw [dayNumber_iff]
  exact ⟨⟨by simp only; omega, by simp only; omega, by simp, daysInMonth_pos _ _⟩, rfl⟩

/-- First nanosecond of a period. -/
def startNs : TimeUnit → Int → Int
  | .Y, v => monthStart (12 * v) * 86400000000000
  | .M, v => monthStart v * 86400000000000
  | u, v => v * (nanos u).getD 0

theorem starts_iff {u : TimeUnit} {v t : Int} : Starts u v t ↔ t = startNs u v := by
  have hy : Starts .Y v t ↔ t = startNs .Y v := by
    have h := monthStart_dayNumber (12 * v)
    have e1 : 12 * v / 12 = v := by omega
    have e2 : 1 + 12 * v % 12 = 1 := by omega
    rw [e1, e2] at h
    constructor
    · rintro ⟨n, hn, rfl⟩
      rw [dayNumber_unique' hn h]; rfl
    · rintro rfl
      exact ⟨_, h, rfl⟩
  have hm : Starts .M v t ↔ t = startNs .M v := by
    have h := monthStart_dayNumber v
    constructor
    · rintro ⟨n, hn, rfl⟩
      rw [dayNumber_unique' hn h]; rfl
    · rintro rfl
      exact ⟨_, h, rfl⟩
  cases u
  case Y => exact hy
  case M => exact hm
  all_goals simp [Starts, startNs, nanos]

theorem startNs_strictMono (u : TimeUnit) : StrictMono (startNs u) := by
  intro a b h
  cases u
  case Y =>
    have := monthStart_strictMono (show 12 * a < 12 * b by omega)
    simp only [startNs]; omega
  case M =>
    have := monthStart_strictMono h
    simp only [startNs]; omega
  all_goals simp only [startNs, nanos, Option.getD_some]; omega

theorem floorsTo_iff {u w : TimeUnit} {v r : Int} :
    FloorsTo u v w r ↔ startNs w r ≤ startNs u v ∧ startNs u v < startNs w (r + 1) := by
  unfold FloorsTo
  simp only [starts_iff]
  constructor
  · rintro ⟨t, a, b, rfl, rfl, rfl, h⟩; exact h
  · intro h; exact ⟨_, _, _, rfl, rfl, rfl, h⟩

theorem floorsTo_unique {u w : TimeUnit} {v r s : Int} (h1 : FloorsTo u v w r) (h2 : FloorsTo u v w s) : r = s := by
  rw [floorsTo_iff] at h1 h2
  have a := (startNs_strictMono w).lt_iff_lt.1 (lt_of_le_of_lt h1.1 h2.2)
  have b := (startNs_strictMono w).lt_iff_lt.1 (lt_of_le_of_lt h2.1 h1.2)
  omega

end Rumpy
