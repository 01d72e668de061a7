import Verif.Lemmas.Datetime
/-!
# C29, C30: calendar dates and conversion between time units
-/

namespace Props
open Spec Rumpy

/-- C29: day `n` is given the date found by counting from 1970-01-01, exactly for the day numbers
that do not overflow when the epoch is shifted. -/
theorem C29_date_iff_partial {n : Int} (h1 : -2 ^ 63 ≤ n) (h2 : n < 2 ^ 63) :
    DayNumber n (daysToYmd n) ↔ n < 2 ^ 63 - 719468 := by
  constructor
  · intro h
    by_contra hn
    rw [daysToYmd_civil] at h
    have e : wrap64 (n + 719468) = n + 719468 - 2 ^ 64 := by
      have h3 : wrap64 ((n + 719468 - 2 ^ 64) + (2 ^ 64 : Nat)) = wrap64 (n + 719468 - 2 ^ 64) := by
        unfold wrap64; exact Int.add_bmod_right _ _
      have h4 : (n + 719468 - 2 ^ 64) + ((2 ^ 64 : Nat) : Int) = n + 719468 := by norm_num
      rw [h4, wrap64_eq (x := n + 719468 - 2 ^ 64) (by omega) (by omega)] at h3
      exact h3
    have h3 := dayNumber_civil (n - 2 ^ 64)
    have e2 : n - 2 ^ 64 + 719468 = wrap64 (n + 719468) := by rw [e]; ring
    rw [e2] at h3
    have := dayNumber_unique' h h3
    omega
  · intro h
    exact daysToYmd_spec h1 (by omega)

/-- C29 in the form of the property: the next day number is the next calendar date, and day 0 is
1970-01-01. -/
theorem C29_next {n : Int} (h1 : -2 ^ 63 ≤ n) (h2 : n + 1 < 2 ^ 63 - 719468) :
    daysToYmd 0 = ⟨1970, 1, 1⟩ ∧ daysToYmd (n + 1) = (daysToYmd n).next := by
  refine ⟨by decide, ?_⟩
  exact dayNumber_unique (daysToYmd_spec (by omega) (by omega)) (.forward (daysToYmd_spec h1 (by omega)))

/-- C29: every date that exists is converted to its day number. -/
theorem C29_days {n y m d : Int} (h : DayNumber n ⟨y, m, d⟩) (h1 : -2 ^ 63 ≤ n) (h2 : n < 2 ^ 63) :
    ymdToDays y m d = n := ymdToDays_dayNumber h h1 h2

/-- C29: day number to date and back. -/
theorem C29_roundtrip {n : Int} (h1 : -2 ^ 63 ≤ n) (h2 : n < 2 ^ 63 - 719468) :
    (daysToYmd n).Valid ∧ ymdToDays (daysToYmd n).year (daysToYmd n).month (daysToYmd n).day = n :=
  have h := daysToYmd_spec h1 (by omega)
  ⟨(dayNumber_iff.1 h).1, ymdToDays_dayNumber (y := (daysToYmd n).year) (m := (daysToYmd n).month)
    (d := (daysToYmd n).day) h h1 (by omega)⟩

/-- C29: date to day number and back, for every date that exists and whose day number fits. -/
theorem C29_roundtrip_date {y m d : Int} (hv : Date.Valid ⟨y, m, d⟩) :
    ∃ n, DayNumber n ⟨y, m, d⟩ ∧ (-2 ^ 63 ≤ n → n < 2 ^ 63 - 719468 → daysToYmd (ymdToDays y m d) = ⟨y, m, d⟩) := by
  refine ⟨_, dayNumber_iff.2 ⟨hv, rfl⟩, fun h1 h2 => ?_⟩
  have h : DayNumber _ ⟨y, m, d⟩ := dayNumber_iff.2 ⟨hv, rfl⟩
  rw [ymdToDays_dayNumber h h1 (by omega)]
  exact dayNumber_unique (daysToYmd_spec h1 (by omega)) h

/-- The last day numbers are given dates in the far past. -/
theorem C29_counterexample : ¬ DayNumber (2 ^ 63 - 1) (daysToYmd (2 ^ 63 - 1)) := by
  rw [C29_date_iff_partial (by decide) (by decide)]
  decide

example : daysToYmd (-1) = ⟨1969, 12, 31⟩ ∧ daysToYmd 11016 = ⟨2000, 2, 29⟩ ∧ daysToYmd (-25509) = ⟨1900, 2, 28⟩ ∧
    daysToYmd (-25508) = ⟨1900, 3, 1⟩ ∧ ymdToDays 2000 2 29 = 11016 := by decide

/-- C30, units of fixed length: to a unit that is not longer the value is exact, for all values whose
result fits, and converting back gives the value. -/
theorem C30_finer {u w : TimeUnit} {a b v : Int} (ha : nanos u = some a) (hb : nanos w = some b) (h : b ≤ a)
    (hv : -2 ^ 63 < v) (hr1 : -2 ^ 63 < v * (a / b)) (hr2 : v * (a / b) < 2 ^ 63) :
    FloorsTo u v w (convertDatetime v u w) ∧ convertDatetime (convertDatetime v u w) w u = v := by
  have hn : v ≠ NaT := by unfold NaT; omega
  by_cases hne : u = w
  · subst hne
    have e : convertDatetime v u u = v := by unfold convertDatetime; rw [if_neg hn, if_pos rfl]
    rw [e, e]
    refine ⟨?_, rfl⟩
    have := floorsTo_finer (v := v) ha ha (le_refl _)
    have hpos := (nanos_dvd ha ha (le_refl _)).2
    rwa [Int.ediv_self (by omega), Int.mul_one] at this
  · obtain ⟨⟨k, rfl⟩, hpos⟩ := nanos_dvd ha hb h
    rw [Int.mul_ediv_cancel_left _ (by omega)] at hr1 hr2
    have ek : (b * k).tdiv b = k := Int.mul_tdiv_cancel_left _ (by omega)
    have e : convertDatetime v u w = v * k := by
      rw [convert_fixed ha hb hn hne, if_pos h, ek, wrap64_eq (by omega) hr2]
    have hn' : v * k ≠ NaT := by unfold NaT; omega
    rw [e]
    refine ⟨?_, ?_⟩
    · have := floorsTo_finer (v := v) ha hb h
      rwa [Int.mul_ediv_cancel_left _ (by omega)] at this
    · rw [convert_fixed hb ha hn' (Ne.symm hne)]
      have hk : k ≠ 0 := by
        rintro rfl
        have := (nanos_dvd ha ha (le_refl _)).2
        omega
      split
      · rename_i hge
        have : b * k = b := le_antisymm hge h
        have hk1 : k = 1 := by
          have : b * k = b * 1 := by omega
          exact Int.eq_of_mul_eq_mul_left (by omega) this
        subst hk1
        rw [Int.mul_one, Int.mul_one, Int.tdiv_self (by omega), Int.mul_one, wrap64_eq (by omega) (by omega)]
      · rw [ek, Int.mul_tdiv_cancel _ hk]

example : convertDatetime (-3) .D .us = -259200000000 ∧ convertDatetime (-259200000000) .us .D = -3 := by decide

/-- C30, units of fixed length: to a longer unit the value is rounded towards the past exactly when it
is not before 1970 or nothing is lost. -/
theorem C30_coarser_iff {u w : TimeUnit} {a b v : Int} (ha : nanos u = some a) (hb : nanos w = some b) (h : a < b)
    (hv : v ≠ NaT) : FloorsTo u v w (convertDatetime v u w) ↔ 0 ≤ v ∨ b / a ∣ v := by
  have hne : u ≠ w := by rintro rfl; rw [ha] at hb; simp at hb; omega
  have hd := nanos_dvd hb ha (by omega)
  have hq : 0 < b / a := Int.ediv_pos_of_pos_of_dvd (by omega) (by omega) hd.1
  have hf := floorsTo_coarser (v := v) ha hb (by omega)
  rw [convert_fixed ha hb hv hne, if_neg (by omega), Int.tdiv_eq_ediv_of_dvd hd.1, ← tdiv_eq_ediv_iff hq]
  constructor
  · intro hg; exact floorsTo_unique hg hf
  · intro hg; rw [hg]; exact hf

/-- An hour before 1970 falls on 1970-01-01; a month before 1970 falls in 1970; 2020-01-01 as a
timestamp and back is fine. -/
theorem C30_counterexample :
    convertDatetime (-1) .h .D = 0 ∧ ¬ FloorsTo .h (-1) .D 0 ∧ FloorsTo .h (-1) .D (-1) ∧
      convertDatetime (-1) .M .Y = 0 ∧ ¬ FloorsTo .M (-1) .Y 0 ∧ FloorsTo .M (-1) .Y (-1) ∧
      convertDatetime (-1) .s .M = 0 ∧ ¬ FloorsTo .s (-1) .M 0 ∧ FloorsTo .s (-1) .M (-1) := by
  simp only [floorsTo_iff]
  decide

/-- Values far from 1970 wrap around without an error. -/
theorem C30_overflow_counterexample :
    convertDatetime (2 ^ 57) .D .ns ≠ 2 ^ 57 * 86400000000000 ∧
      FloorsTo .D (2 ^ 57) .ns (2 ^ 57 * 86400000000000) := by
  refine ⟨by decide, ?_⟩
  rw [floorsTo_iff]
  decide

/-- C30 for every pair of units, from 1970 on: the conversion gives the period of the new unit in
which the old period begins, whenever that number and the day number fit. -/
theorem C30_floor_partial {u w : TimeUnit} {v t r : Int} (hv : 0 ≤ v) (hv2 : v < 2 ^ 63) (ht : Starts u v t)
    (hday : t / 86400000000000 + 719468 < 2 ^ 63) (hr : FloorsTo u v w r) (hr2 : r < 2 ^ 63) :
    convertDatetime v u w = r := by
  rw [starts_iff] at ht
  subst ht
  have h00 : ∀ u, startNs u 0 = 0 := by intro u; cases u <;> decide
  have hs0 : 0 ≤ startNs u v := by
    have := (startNs_strictMono u).monotone hv
    rwa [h00] at this
  have hr0 : 0 ≤ r := by
    have h2 := (floorsTo_iff.1 hr).2
    have := (startNs_strictMono w).lt_iff_lt.1 (show startNs w 0 < startNs w (r + 1) by rw [h00]; omega)
    omega
  have hn : v ≠ NaT := by unfold NaT; omega
  by_cases hne : u = w
  · subst hne
    unfold convertDatetime
    rw [if_neg hn, if_pos rfl]
    exact floorsTo_unique (by rw [floorsTo_iff]; exact ⟨le_refl _, startNs_strictMono u (by omega)⟩) hr
  generalize hN : startNs u v / 86400000000000 = N at hday
  have hN0 : 0 ≤ N := by omega
  cases hb : nanos w with
  | some b =>
    cases ha : nanos u with
    | some a =>
      rw [convert_fixed ha hb hn hne]
      split
      · rename_i hge
        have hd := nanos_dvd ha hb hge
        have := floorsTo_unique hr (floorsTo_finer ha hb hge)
        rw [Int.tdiv_eq_ediv_of_dvd hd.1, ← this, wrap64_eq (by omega) hr2]
      · rename_i hge
        have hd := nanos_dvd hb ha (by omega)
        rw [floorsTo_unique hr (floorsTo_coarser ha hb (by omega)), Int.tdiv_eq_ediv_of_dvd hd.1,
          Int.tdiv_eq_ediv_of_nonneg hv]
    | none =>
      have huv : startNs u v = N * 86400000000000 := by
        cases u <;> simp [nanos] at ha <;> simp only [startNs] at hN ⊢ <;> omega
      have key : ∀ y m : Int, DayNumber N ⟨y, m, 1⟩ → daysToUnit (ymdToDays y m 1) w = r := by
        intro y m h
        rw [ymdToDays_dayNumber h (by omega) (by omega)]
        exact daysToUnit_eq hb (floorsTo_unique hr (floorsTo_day_fixed huv hb)) (by omega) hr2 (fun _ => Or.inl hN0)
      have hD : DayNumber N ⟨1970 + v, 1, 1⟩ ∨ DayNumber N ⟨1970 + v / 12, 1 + v % 12, 1⟩ := by
        cases u <;> simp [nanos] at ha
        · left
          have h := monthStart_dayNumber (12 * v)
          have e1 : 12 * v / 12 = v := by omega
          have e2 : 1 + 12 * v % 12 = 1 := by omega
          rw [e1, e2] at h
          simp only [startNs] at huv
          have : N = monthStart (12 * v) := by omega
          rwa [this]
        · right
          simp only [startNs] at huv
          have : N = monthStart v := by omega
          rw [this]
          exact monthStart_dayNumber v
      unfold convertDatetime
      rw [if_neg hn, if_neg hne]
      cases u <;> simp [nanos] at ha
      · have hY : DayNumber N ⟨1970 + v, 1, 1⟩ := by
          have h := monthStart_dayNumber (12 * v)
          have e1 : 12 * v / 12 = v := by omega
          have e2 : 1 + 12 * v % 12 = 1 := by omega
          rw [e1, e2] at h
          simp only [startNs] at huv
          have : N = monthStart (12 * v) := by omega
          rwa [this]
        have hb' := dayNumber_year_bounds hY (by omega) (by omega)
        dsimp only at hb'
        have hw : wrap64 (1970 + v) = 1970 + v := wrap64_eq (by omega) (by omega)
        cases w <;> simp [nanos] at hb <;> simp only [hw] <;> exact key _ _ hY
      · have hM : DayNumber N ⟨1970 + v / 12, 1 + v % 12, 1⟩ := by
          simp only [startNs] at huv
          have : N = monthStart v := by omega
          rw [this]
          exact monthStart_dayNumber v
        have hb' := dayNumber_year_bounds hM (by omega) (by omega)
        dsimp only at hb'
        have hw : wrap64 (1970 * 12 + v) = 1970 * 12 + v := wrap64_eq (by omega) (by omega)
        have e1 : (1970 * 12 + v).tdiv 12 = 1970 + v / 12 := by
          rw [Int.tdiv_eq_ediv_of_nonneg (by omega)]; omega
        have e2 : (1970 * 12 + v).tmod 12 + 1 = 1 + v % 12 := by
          rw [Int.tmod_eq_emod_of_nonneg (by omega)]; omega
        cases w <;> simp [nanos] at hb <;> simp only [hw, e1, e2] <;> exact key _ _ hM
  | none =>
    have hD : DayNumber N (daysToYmd N) := daysToYmd_spec (by omega) hday
    have hyb := dayNumber_year_bounds hD (by omega) (by omega)
    have hmv := (dayNumber_iff.1 hD).1
    cases ha : nanos u with
    | some a =>
      have hs := startNs_fixed ha v
      have hud : unitToDays v u = N := by
        rw [unitToDays_eq ha (by rw [← hs]; omega) (by rw [← hs]; omega) (Or.inl hv), ← hs]
        exact hN
      unfold convertDatetime
      rw [if_neg hn, if_neg hne]
      cases w <;> simp [nanos] at hb
      · have := floorsTo_unique hr (floorsTo_year hN hD)
        cases u <;> simp [nanos] at ha <;> simp only [hud] <;> rw [wrap64_eq (by omega) (by omega)] <;> exact this.symm
      · have := floorsTo_unique hr (floorsTo_month hN hD)
        unfold monthIndex at this
        cases u <;> simp [nanos] at ha <;> simp only [hud] <;> rw [wrap64_eq (by omega) (by omega)] <;> exact this.symm
    | none =>
      have hYM : ∀ i : Int, FloorsTo .M i .Y (i / 12) := by
        intro i
        have h := monthStart_dayNumber i
        have := floorsTo_year (u := .M) (v := i) (n := monthStart i) (by simp only [startNs]; omega) h
        simpa using this
      have hMY : ∀ i : Int, FloorsTo .Y i .M (i * 12) := by
        intro i
        rw [floorsTo_iff]
        have := monthStart_strictMono (show i * 12 < i * 12 + 1 by omega)
        have e : i * 12 = 12 * i := by ring
        simp only [startNs]
        rw [← e]
        omega
      unfold convertDatetime
      rw [if_neg hn, if_neg hne]
      cases u <;> simp [nanos] at ha <;> cases w <;> simp [nanos] at hb
      · exact absurd rfl hne
      · have := floorsTo_unique hr (hMY v)
        simp only
        rw [← this, wrap64_eq (by omega) hr2]
      · have := floorsTo_unique hr (hYM v)
        simp only
        rw [this, Int.tdiv_eq_ediv_of_nonneg hv]
      · exact absurd rfl hne

example : convertDatetime 50 .Y .W = 2608 ∧ convertDatetime 611 .M .s = 1606780800 ∧
    convertDatetime 1606780800 .s .M = 611 ∧ convertDatetime 1606780800000000000 .ns .Y = 50 := by decide

/-- NaT stays NaT, for every pair of units. -/
theorem C30_nat (u w : TimeUnit) : convertDatetime NaT u w = NaT := by
  unfold convertDatetime
  rw [if_pos rfl]

/-- Every period lies in exactly one period of every unit, so the specification used above always
asks for one result. -/
theorem C30_spec_total (u w : TimeUnit) (v : Int) : ∃ r, FloorsTo u v w r ∧ ∀ s, FloorsTo u v w s → s = r := by
  have h : ∃ r, FloorsTo u v w r := by
    cases hb : nanos w with
    | some b =>
      have hpos : 0 < b := (nanos_dvd hb hb (le_refl _)).2
      refine ⟨startNs u v / b, ?_⟩
      rw [floorsTo_iff, startNs_fixed hb, startNs_fixed hb]
      exact ⟨Int.ediv_mul_le _ (by omega), Int.lt_ediv_add_one_mul_self _ hpos⟩
    | none =>
      obtain ⟨d, hd⟩ := exists_dayNumber (startNs u v / 86400000000000)
      cases w <;> simp [nanos] at hb
      · exact ⟨_, floorsTo_year rfl hd⟩
      · exact ⟨_, floorsTo_month rfl hd⟩
  obtain ⟨r, hr⟩ := h
  exact ⟨r, hr, fun s hs => floorsTo_unique hs hr⟩

end Props
