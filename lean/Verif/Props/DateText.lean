import Verif.Lemmas.DateText
/-!
# C31: printing a date and reading it back
-/

namespace Props
open Spec Rumpy

/-- C31, from year 0 on: a printed value is read back as the same value for units down to
milliseconds; with microseconds and nanoseconds as the same value or one less.  Missing: microseconds
and nanoseconds exactly, and years before 0 (see below). -/
theorem C31_roundtrip_partial {u : TimeUnit} {v t y : Int} (hv1 : -2 ^ 63 < v) (hv2 : v < 2 ^ 63) (ht : Starts u v t)
    (hday : t / 86400000000000 + 719468 < 2 ^ 63) (hr : FloorsTo u v .Y (y - 1970)) (hy : 0 ≤ y) :
    (u ≠ .us → u ≠ .ns → parseDatetime (datetimeAsString v u u) u = v) ∧
      v - 1 ≤ parseDatetime (datetimeAsString v u u) u ∧ parseDatetime (datetimeAsString v u u) u ≤ v := by
  have hn : v ≠ NaT := by unfold NaT; omega
  have hs : datetimeAsString v u u = formatDatetime v u := by
    unfold datetimeAsString
    simp [hn]
  rw [hs]
  rw [starts_iff] at ht
  subst ht
  have hlow : -800000 ≤ startNs u v / 86400000000000 := by
    have h1 := (floorsTo_iff.1 hr).1
    have h2 := (startNs_strictMono .Y).monotone (show (-1970 : Int) ≤ y - 1970 by omega)
    have h3 : startNs .Y (-1970) = -719528 * 86400000000000 := by decide
    omega
  have hD := daysToYmd_spec (n := startNs u v / 86400000000000) (by omega) hday
  have hyear : (daysToYmd (startNs u v / 86400000000000)).year = y := by
    have := floorsTo_unique hr (floorsTo_year rfl hD)
    omega
  cases ha : nanos u with
  | some a =>
    have he := startNs_fixed ha v
    rw [he] at hday hlow hyear
    exact text_fixed ha hv1 hv2 hday (by omega) (by omega)
  | none =>
    have hyb := dayNumber_year_bounds hD (by omega) (by omega)
    cases u <;> simp [nanos] at ha
    · have hvy : y = 1970 + v := by
        have : FloorsTo .Y v .Y v := by rw [floorsTo_iff]; exact ⟨le_refl _, startNs_strictMono .Y (by omega)⟩
        have := floorsTo_unique hr this
        omega
      subst hvy
      have e : formatDatetime v .Y = showIntPad 4 (1970 + v) := by
        unfold formatDatetime
        rw [wrap64_eq (by omega) (by omega)]
      have key : parseDatetime (formatDatetime v .Y) .Y = v := by
        rw [e]
        unfold parseDatetime
        have hnn := not_nat_text (w := 4) hy []
        rw [List.append_nil] at hnn
        rw [if_neg hnn, splitOn_none (notMem_showIntPad hy (by decide))]
        simp only [List.headD_cons]
        rw [splitOn_none (notMem_showIntPad hy (by decide))]
        simp only [List.getElem?_cons_zero, Option.bind_some, parse_showIntPad hy (show 1970 + v < 2 ^ 63 by omega)]
        rw [wrap64_eq (by omega) (by omega)]
        omega
      exact ⟨fun _ _ => key, by omega, by omega⟩
    · have hvy : y - 1970 = v / 12 := by
        have h := monthStart_dayNumber v
        have := floorsTo_year (u := .M) (v := v) (n := monthStart v) (by simp only [startNs]; omega) h
        have := floorsTo_unique hr this
        simp only at this
        omega
      have hvv : v = (y - 1970) * 12 + v % 12 := by omega
      have e : formatDatetime v .M = showIntPad 4 y ++ '-' :: showIntPad 2 (v % 12 + 1) := by
        unfold formatDatetime
        dsimp only
        rw [wrap64_eq (by omega) (by omega), Int.tdiv_eq_ediv_of_nonneg (by omega),
          Int.tmod_eq_emod_of_nonneg (by omega)]
        have e1 : (1970 * 12 + v) / 12 = y := by omega
        have e2 : (1970 * 12 + v) % 12 = v % 12 := by omega
        rw [e1, e2]
      have hm : 0 ≤ v % 12 + 1 := by omega
      have key : parseDatetime (formatDatetime v .M) .M = v := by
        rw [e]
        unfold parseDatetime
        have hT : 'T' ∉ showIntPad 4 y ++ '-' :: showIntPad 2 (v % 12 + 1) := by
          simp only [List.mem_append, List.mem_cons, not_or]
          exact ⟨notMem_showIntPad hy (by decide), by decide, notMem_showIntPad hm (by decide)⟩
        rw [if_neg (not_nat_text hy _), splitOn_none hT]
        simp only [List.headD_cons]
        rw [splitOn_append (notMem_showIntPad hy (by decide)), splitOn_none (notMem_showIntPad hm (by decide))]
        simp only [List.getElem?_cons_zero, List.getElem?_cons_succ, Option.bind_some,
          parse_showIntPad hy (show y < 2 ^ 63 by omega), parse_showIntPad hm (show v % 12 + 1 < 2 ^ 63 by omega),
          Option.getD_some]
        rw [wrap64_eq (by omega) (by omega)]
        omega
      exact ⟨fun _ _ => key, by omega, by omega⟩

example : datetimeAsString (-1) .s .s = "1969-12-31T23:59:59".toList ∧
    parseDatetime "1969-12-31T23:59:59".toList .s = -1 ∧
    datetimeAsString 1582979696789 .ms .ms = "2020-02-29T12:34:56.789".toList ∧
    parseDatetime "2020-02-29T12:34:56.789".toList .ms = 1582979696789 := by decide +kernel

/-- NaT is printed and read back as NaT. -/
theorem C31_nat (u : TimeUnit) : datetimeAsString NaT u u = "NaT".toList ∧ parseDatetime "NaT".toList u = NaT := by
  refine ⟨by unfold datetimeAsString; simp, ?_⟩
  unfold parseDatetime
  rw [if_pos (Or.inl rfl)]

/-- Some times are read back one tick early: 249 microseconds, 15 nanoseconds. -/
theorem C31_counterexample :
    datetimeAsString 249 .us .us = "1970-01-01T00:00:00.000249".toList ∧
      parseDatetime "1970-01-01T00:00:00.000249".toList .us = 248 ∧
      datetimeAsString 15 .ns .ns = "1970-01-01T00:00:00.000000015".toList ∧
      parseDatetime "1970-01-01T00:00:00.000000015".toList .ns = 14 := by decide +kernel

/-- Years before 0 are printed but never read back: the result is NaT. -/
theorem C31_negative_years {u : TimeUnit} {v t y : Int} (hu : u ≠ .M) (hv1 : -2 ^ 63 < v) (ht : Starts u v t)
    (hday2 : -2 ^ 63 ≤ t / 86400000000000) (hr : FloorsTo u v .Y (y - 1970)) (hy : y < 0) :
    parseDatetime (datetimeAsString v u u) u = NaT := by
  have hn : v ≠ NaT := by unfold NaT; omega
  have hs : datetimeAsString v u u = formatDatetime v u := by
    unfold datetimeAsString
    simp [hn]
  rw [hs]
  rw [starts_iff] at ht
  subst ht
  have hhigh : startNs u v / 86400000000000 < 0 := by
    have h1 := (floorsTo_iff.1 hr).2
    have h2 := (startNs_strictMono .Y).monotone (show y - 1970 + 1 ≤ (-1970 : Int) by omega)
    have h3 : startNs .Y (-1970) = -719528 * 86400000000000 := by decide
    omega
  have hD := daysToYmd_spec (n := startNs u v / 86400000000000) hday2 (by omega)
  have hyear : (daysToYmd (startNs u v / 86400000000000)).year = y := by
    have := floorsTo_unique hr (floorsTo_year rfl hD)
    omega
  -- the text begins with a minus sign
  have key : ∀ l : List Char, parseDatetime ('-' :: l) u = NaT := by
    intro l
    unfold parseDatetime
    rw [if_neg (by simp)]
    have hsp : ∃ ps, splitOn 'T' ('-' :: l) = ps ∧ ∃ r, ps.headD [] = '-' :: r := by
      refine ⟨_, rfl, ?_⟩
      unfold splitOn
      rw [if_neg (by decide)]
      cases splitOn 'T' l with
      | nil => exact ⟨[], rfl⟩
      | cons p ps => exact ⟨p, rfl⟩
    obtain ⟨ps, h1, r, h2⟩ := hsp
    rw [h1]
    dsimp only
    rw [h2]
    have h3 : splitOn '-' ('-' :: r) = [] :: splitOn '-' r := by
      conv_lhs => unfold splitOn
      rw [if_pos rfl]
    rw [h3]
    simp [parseI64, parseDigits]
  have hdate : ∀ l, ∃ r, dateString (startNs u v / 86400000000000) ++ l = '-' :: r := by
    intro l
    unfold dateString showIntPad
    dsimp only
    rw [if_pos (by omega : (daysToYmd (startNs u v / 86400000000000)).year < 0)]
    exact ⟨_, rfl⟩
  have hdate0 : ∃ r, dateString (startNs u v / 86400000000000) = '-' :: r := by
    obtain ⟨r, hr⟩ := hdate []
    exact ⟨r, by simpa using hr⟩
  have hw := startNs_strictMono u
  suffices h : ∃ r, formatDatetime v u = '-' :: r by
    obtain ⟨r, h⟩ := h
    rw [h]; exact key r
  cases u
  case M => exact absurd rfl hu
  case Y =>
    have hvy : y = 1970 + v := by
      have : FloorsTo .Y v .Y v := by rw [floorsTo_iff]; exact ⟨le_refl _, startNs_strictMono .Y (by omega)⟩
      have := floorsTo_unique hr this
      omega
    unfold formatDatetime
    rw [wrap64_eq (by omega) (by omega), ← hvy]
    unfold showIntPad
    rw [if_pos hy]
    exact ⟨_, rfl⟩
  case W =>
    have e : startNs .W v / 86400000000000 = wrap64 (v * 7) := by
      simp only [startNs, nanos, Option.getD_some] at hday2 hhigh ⊢
      rw [wrap64_eq] <;> omega
    rw [e] at hdate0
    exact hdate0
  case D =>
    have e : startNs .D v / 86400000000000 = v := by
      simp only [startNs, nanos, Option.getD_some]; omega
    rw [e] at hdate0
    exact hdate0
  case h =>
    have e : startNs .h v / 86400000000000 = v / 24 := by
      simp only [startNs, nanos, Option.getD_some]; omega
    rw [e] at hdate
    exact hdate _
  case m =>
    have e : startNs .m v / 86400000000000 = v / (24 * 60) := by
      simp only [startNs, nanos, Option.getD_some]; omega
    rw [e] at hdate
    simp only [formatDatetime, List.append_assoc]
    exact hdate _
  case s =>
    have e : startNs .s v / 86400000000000 = v / (24 * 60 * 60) := by
      simp only [startNs, nanos, Option.getD_some]; omega
    rw [e] at hdate
    simp only [formatDatetime, List.append_assoc]
    exact hdate _
  case ms =>
    have e : startNs .ms v / 86400000000000 = v / (24 * 60 * 60 * 1000) := by
      simp only [startNs, nanos, Option.getD_some]; omega
    rw [e] at hdate
    simp only [formatDatetime, List.append_assoc]
    exact hdate _
  case us =>
    have e : startNs .us v / 86400000000000 = v / (24 * 60 * 60 * 1000000) := by
      simp only [startNs, nanos, Option.getD_some]; omega
    rw [e] at hdate
    simp only [formatDatetime, List.append_assoc]
    exact hdate _
  case ns =>
    have e : startNs .ns v / 86400000000000 = v / (24 * 60 * 60 * 1000000000) := by
      simp only [startNs, nanos, Option.getD_some]; omega
    rw [e] at hdate
    simp only [formatDatetime, List.append_assoc]
    exact hdate _

/-- Month numbers before year 0 are even printed wrongly. -/
theorem C31_month_counterexample :
    datetimeAsString (-23645) .M .M = "0000--4".toList ∧ parseDatetime "0000--4".toList .M = -23640 := by decide +kernel

example : datetimeAsString (-719529) .D .D = "-001-12-31".toList ∧ parseDatetime "-001-12-31".toList .D = NaT := by
  decide +kernel

end Props
