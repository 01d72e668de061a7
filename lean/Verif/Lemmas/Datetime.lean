import Verif.Lemmas.Calendar
/-!
# Lemmas: conversion between time units
-/

namespace Rumpy
open Spec

theorem ymdToDays_dayNumber {n y m d : Int} (h : DayNumber n ⟨y, m, d⟩) (h1 : -2 ^ 63 ≤ n) (h2 : n < 2 ^ 63) :
    ymdToDays y m d = n := by
  obtain ⟨hv, he⟩ := dayNumber_iff.1 h
  obtain ⟨b1, b2⟩ := dayOf_year_bounds hv
  have he : dayOf y m d = n := he
  rw [he] at b1 b2
  rw [ymdToDays_eq (by omega) (by omega) hv.1 hv.2.1, he, wrap64_eq h1 h2]

theorem dayNumber_year_bounds {n : Int} {d : Date} (h : DayNumber n d) (h1 : -2 ^ 63 ≤ n) (h2 : n < 2 ^ 63) :
    -2 ^ 59 ≤ d.year ∧ d.year < 2 ^ 59 := by
  obtain ⟨hv, he⟩ := dayNumber_iff.1 h
  obtain ⟨b1, b2⟩ := dayOf_year_bounds hv
  have he : dayOf d.year d.month d.day = n := he
  rw [he] at b1 b2
  omega

theorem toNsFactor_eq (u : TimeUnit) : toNsFactor u = nanos u := by cases u <;> rfl

theorem convert_fixed {u w : TimeUnit} {a b v : Int} (ha : nanos u = some a) (hb : nanos w = some b) (hv : v ≠ NaT)
    (hne : u ≠ w) :
    convertDatetime v u w = if a ≥ b then wrap64 (v * a.tdiv b) else v.tdiv (b.tdiv a) := by
  unfold convertDatetime
  rw [if_neg hv, if_neg hne]
  cases u <;> cases w <;> simp [nanos] at ha hb <;> subst ha <;> subst hb <;> rfl

theorem nanos_dvd {u w : TimeUnit} {a b : Int} (ha : nanos u = some a) (hb : nanos w = some b) (h : b ≤ a) :
    b ∣ a ∧ 0 < b := by
  cases u <;> cases w <;> simp [nanos] at ha hb <;> subst ha <;> subst hb <;>
    first | exact ⟨by decide, by decide⟩ | (exfalso; revert h; decide)

theorem startNs_fixed {u : TimeUnit} {a : Int} (ha : nanos u = some a) (v : Int) : startNs u v = v * a := by
  cases u <;> simp [nanos] at ha <;> subst ha <;> rfl

/-- To a unit that is not longer. -/
theorem floorsTo_finer {u w : TimeUnit} {a b v : Int} (ha : nanos u = some a) (hb : nanos w = some b) (h : b ≤ a) :
    FloorsTo u v w (v * (a / b)) := by
  obtain ⟨⟨k, rfl⟩, hpos⟩ := nanos_dvd ha hb h
  rw [floorsTo_iff, startNs_fixed ha, startNs_fixed hb, startNs_fixed hb, Int.mul_ediv_cancel_left _ (by omega)]
  constructor <;> nlinarith

/-- To a longer unit. -/
theorem floorsTo_coarser {u w : TimeUnit} {a b v : Int} (ha : nanos u = some a) (hb : nanos w = some b) (h : a ≤ b) :
    FloorsTo u v w (v / (b / a)) := by
  obtain ⟨⟨k, rfl⟩, hpos⟩ := nanos_dvd hb ha h
  have hk : 0 < k := by
    by_contra hn
    have : a * k ≤ 0 := Int.mul_nonpos_of_nonneg_of_nonpos (by omega) (by omega)
    omega
  rw [floorsTo_iff, startNs_fixed ha, startNs_fixed hb, startNs_fixed hb, Int.mul_ediv_cancel_left _ (by omega)]
  have h1 := Int.ediv_mul_le v (b := k) (by omega)
  have h2 := Int.lt_ediv_add_one_mul_self v hk
  constructor
  · nlinarith
  · nlinarith

theorem tdiv_eq_ediv_iff {v k : Int} (hk : 0 < k) : v.tdiv k = v / k ↔ 0 ≤ v ∨ k ∣ v := by
  constructor
  · intro h
    by_cases hv : 0 ≤ v
    · exact Or.inl hv
    · right
      have h1 : v.tdiv k * k + v.tmod k = v := Int.tdiv_mul_add_tmod v k
      have h2 := Int.mul_ediv_add_emod v k
      have h3 := Int.emod_nonneg v (by omega : k ≠ 0)
      have h4 : v.tmod k ≤ 0 := by
        have := Int.tmod_nonneg k (by omega : 0 ≤ -v)
        rw [Int.neg_tmod] at this
        omega
      rw [h] at h1
      apply Int.dvd_of_emod_eq_zero
      have : v / k * k = k * (v / k) := Int.mul_comm _ _
      omega
  · rintro (h | ⟨t, rfl⟩)
    · exact Int.tdiv_eq_ediv_of_nonneg h
    · rw [Int.mul_tdiv_cancel_left _ (by omega), Int.mul_ediv_cancel_left _ (by omega)]

theorem unitToDays_eq {u : TimeUnit} {a v : Int} (ha : nanos u = some a) (hd : v * a / 86400000000000 + 719468 < 2 ^ 63)
    (hd2 : -2 ^ 63 ≤ v * a / 86400000000000) (h : 0 ≤ v ∨ 86400000000000 ∣ v * a) :
    unitToDays v u = v * a / 86400000000000 := by
  cases u <;> simp [nanos] at ha <;> subst ha <;> simp only [unitToDays]
  case W =>
    rw [wrap64_eq] <;> omega
  case D => omega
  all_goals
    rcases h with h | h
    · rw [Int.tdiv_eq_ediv_of_nonneg h]; omega
    · rw [(tdiv_eq_ediv_iff (by decide)).2 (Or.inr (by omega))]; omega

theorem floorsTo_month {u : TimeUnit} {v n : Int} {d : Date} (hn : startNs u v / 86400000000000 = n) (h : DayNumber n d) :
    FloorsTo u v .M (monthIndex d) := by
  obtain ⟨h1, h2⟩ := month_contains h
  rw [floorsTo_iff]
  simp only [startNs] at hn ⊢
  generalize monthStart (monthIndex d) = p at *
  generalize monthStart (monthIndex d + 1) = q at *
  cases u <;> simp only at hn ⊢ <;> omega

theorem floorsTo_year {u : TimeUnit} {v n : Int} {d : Date} (hn : startNs u v / 86400000000000 = n) (h : DayNumber n d) :
    FloorsTo u v .Y (d.year - 1970) := by
  obtain ⟨h1, h2⟩ := year_contains h
  rw [floorsTo_iff]
  have e : 12 * (d.year - 1970 + 1) = 12 * (d.year - 1970) + 12 := by ring
  simp only [startNs, e] at hn ⊢
  generalize monthStart (12 * (d.year - 1970)) = p at *
  generalize monthStart (12 * (d.year - 1970) + 12) = q at *
  cases u <;> simp only at hn ⊢ <;> omega

theorem floorsTo_day_fixed {u w : TimeUnit} {v n b : Int} (hn : startNs u v = n * 86400000000000) (hb : nanos w = some b) :
    FloorsTo u v w (n * 86400000000000 / b) := by
  have hpos : 0 < b := by cases w <;> simp [nanos] at hb <;> omega
  rw [floorsTo_iff, startNs_fixed hb, startNs_fixed hb, hn]
  exact ⟨Int.ediv_mul_le _ (by omega), Int.lt_ediv_add_one_mul_self _ hpos⟩

theorem daysToUnit_eq {w : TimeUnit} {b n r : Int} (hb : nanos w = some b) (hr : r = n * 86400000000000 / b)
    (h1 : -2 ^ 63 ≤ r) (h2 : r < 2 ^ 63) (hw : w = .W → 0 ≤ n ∨ 7 ∣ n) : daysToUnit n w = r := by
  cases w <;> simp [nanos] at hb <;> subst hb <;> simp only [daysToUnit]
  case W =>
    rw [(tdiv_eq_ediv_iff (by decide)).2 (hw rfl), hr]; omega
  case D => omega
  all_goals (rw [wrap64_eq] <;> omega)

end Rumpy
