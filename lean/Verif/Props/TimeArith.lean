import Verif.Lemmas.TimeArith
/-!
# C32, C60, C61: arithmetic and comparison of dates and durations, business days
-/

namespace Props
open Spec Rumpy

/-- C32 for values in the same unit, none of them NaT, whose exact result fits: date + duration,
duration + date, date - duration, date - date and duration ± duration all give the right time.
Missing: NaT operands and different units, see the two theorems after this one. -/
theorem C32_same_unit_partial {u : TimeUnit} {k x y : Int} (hk : nanos u = some k) (reuse : Bool)
    (hx : x ≠ -2 ^ 63) (hy : y ≠ -2 ^ 63) :
    (-2 ^ 63 < x + y → x + y < 2 ^ 63 →
      (∃ r, timeBinary .add reuse (.datetime u) (.timedelta u) x y = some (.datetime u, r) ∧
        timeMeaning u r = optAdd (timeMeaning u x) (timeMeaning u y)) ∧
      (∃ r, timeBinary .add reuse (.timedelta u) (.datetime u) x y = some (.datetime u, r) ∧
        timeMeaning u r = optAdd (timeMeaning u x) (timeMeaning u y)) ∧
      (∃ r, timeBinary .add reuse (.timedelta u) (.timedelta u) x y = some (.timedelta u, r) ∧
        timeMeaning u r = optAdd (timeMeaning u x) (timeMeaning u y))) ∧
    (-2 ^ 63 < x - y → x - y < 2 ^ 63 →
      (∃ r, timeBinary .sub reuse (.datetime u) (.timedelta u) x y = some (.datetime u, r) ∧
        timeMeaning u r = optSub (timeMeaning u x) (timeMeaning u y)) ∧
      (∃ r, timeBinary .sub reuse (.datetime u) (.datetime u) x y = some (.timedelta u, r) ∧
        timeMeaning u r = optSub (timeMeaning u x) (timeMeaning u y)) ∧
      (∃ r, timeBinary .sub reuse (.timedelta u) (.timedelta u) x y = some (.timedelta u, r) ∧
        timeMeaning u r = optSub (timeMeaning u x) (timeMeaning u y))) := by
  have mx : timeMeaning u x = some (x * k) := by unfold timeMeaning; rw [if_neg hx, hk]; rfl
  have my : timeMeaning u y = some (y * k) := by unfold timeMeaning; rw [if_neg hy, hk]; rfl
  have hnx : ¬ (x = NaT ∨ y = NaT) := by unfold NaT; omega
  constructor
  · intro h1 h2
    have e : wrap64 (x + y) = x + y := wrap64_eq (by omega) h2
    have m : timeMeaning u (wrap64 (x + y)) = optAdd (timeMeaning u x) (timeMeaning u y) := by
      rw [e, mx, my]
      unfold timeMeaning optAdd
      rw [if_neg (by omega), hk]
      simp only [Option.map_some, Option.bind_some, Option.some.injEq]
      ring
    refine ⟨⟨_, rfl, m⟩, ⟨_, rfl, m⟩, ?_⟩
    cases reuse
    · exact ⟨_, by simp [timeBinary]; rfl, m⟩
    · refine ⟨_, by simp [timeBinary]; rfl, ?_⟩
      unfold timeOp
      rw [if_neg hnx]
      exact m
  · intro h1 h2
    have e : wrap64 (x - y) = x - y := wrap64_eq (by omega) h2
    have m : timeMeaning u (wrap64 (x - y)) = optSub (timeMeaning u x) (timeMeaning u y) := by
      rw [e, mx, my]
      unfold timeMeaning optSub
      rw [if_neg (by omega), hk]
      simp only [Option.map_some, Option.bind_some, Option.some.injEq]
      ring
    refine ⟨⟨_, rfl, m⟩, ⟨_, by simp [timeBinary]; rfl, m⟩, ?_⟩
    cases reuse
    · exact ⟨_, by simp [timeBinary]; rfl, m⟩
    · refine ⟨_, by simp [timeBinary]; rfl, ?_⟩
      unfold timeOp
      rw [if_neg hnx]
      exact m

example : timeBinary .add false (.datetime .D) (.timedelta .D) 18262 31 = some (.datetime .D, 18293) ∧
    timeBinary .sub false (.datetime .s) (.datetime .s) 100 40 = some (.timedelta .s, 60) := by decide

/-- NaT plus a duration is NaT only if the duration is zero (date + duration, and duration +
duration without a reused output). -/
theorem C32_nat_iff (u w : TimeUnit) (y : Int) (hy1 : -2 ^ 63 < y) (hy2 : y < 2 ^ 63) :
    (timeBinary .add false (.datetime u) (.timedelta w) NaT y = some (.datetime u, NaT) ↔ y = 0) ∧
      (timeBinary .add false (.timedelta u) (.timedelta u) NaT y = some (.timedelta u, NaT) ↔ y = 0) := by
  have h : wrap64 (NaT + y) = NaT ↔ y = 0 := by
    constructor
    · intro h
      by_contra hne
      rcases lt_or_gt_of_ne hne with hlt | hgt
      · have e : wrap64 (NaT + y + (2 ^ 64 : Nat)) = wrap64 (NaT + y) := by
          unfold wrap64; exact Int.add_bmod_right _ _
        rw [h, wrap64_eq (by unfold NaT; push_cast; omega) (by unfold NaT; push_cast; omega)] at e
        unfold NaT at e
        push_cast at e
        omega
      · rw [wrap64_eq (by unfold NaT; omega) (by unfold NaT; omega)] at h
        omega
    · rintro rfl
      decide
  constructor
  · simp only [timeBinary, addSub, Option.some.injEq, Prod.mk.injEq, true_and]
    exact h
  · simp only [timeBinary, if_true, Bool.false_eq_true, if_false, addSub, Option.some.injEq, Prod.mk.injEq, true_and]
    exact h

/-- NaT + 1 day is a date, in the distant past. -/
theorem C32_nat_counterexample :
    timeBinary .add false (.datetime .D) (.timedelta .D) NaT 1 = some (.datetime .D, -2 ^ 63 + 1) ∧
      timeMeaning .D (-2 ^ 63 + 1) ≠ optAdd (timeMeaning .D NaT) (timeMeaning .D 1) := by decide

/-- With different units the numbers are added as they are: the result is right only when the
duration is zero. -/
theorem C32_units_iff {u w : TimeUnit} {k l x y : Int} (hk : nanos u = some k) (hl : nanos w = some l) (hne : u ≠ w)
    (hx : x ≠ -2 ^ 63) (hy : y ≠ -2 ^ 63) (h1 : -2 ^ 63 < x + y) (h2 : x + y < 2 ^ 63) :
    (∃ r, timeBinary .add false (.datetime u) (.timedelta w) x y = some (.datetime u, r) ∧
      timeMeaning u r = optAdd (timeMeaning u x) (timeMeaning w y)) ↔ y = 0 := by
  have mx : timeMeaning u x = some (x * k) := by unfold timeMeaning; rw [if_neg hx, hk]; rfl
  have my : timeMeaning w y = some (y * l) := by unfold timeMeaning; rw [if_neg hy, hl]; rfl
  have mr : timeMeaning u (wrap64 (x + y)) = some ((x + y) * k) := by
    rw [wrap64_eq (by omega) h2]
    unfold timeMeaning; rw [if_neg (by omega), hk]; rfl
  have hkl : k ≠ l := by
    rintro rfl
    apply hne
    clear mx my mr
    cases u <;> cases w <;> simp_all [nanos] <;> omega
  have hiff : timeMeaning u (wrap64 (x + y)) = optAdd (timeMeaning u x) (timeMeaning w y) ↔ y = 0 := by
    rw [mx, my, mr]
    simp only [optAdd, Option.bind_some, Option.map_some, Option.some.injEq]
    constructor
    · intro h
      have : y * (k - l) = 0 := by linarith
      rcases Int.mul_eq_zero.1 this with h | h
      · exact h
      · omega
    · rintro rfl; ring
  rw [← hiff]
  constructor
  · rintro ⟨r, hr, hm⟩
    simp only [timeBinary, addSub, Option.some.injEq, Prod.mk.injEq, true_and] at hr
    rw [hr]; exact hm
  · intro h
    exact ⟨_, rfl, h⟩

/-- One day plus 24 hours is 24 days later; the difference of two dates in different units is a
date. -/
theorem C32_units_counterexample :
    timeBinary .add false (.datetime .D) (.timedelta .h) 0 24 = some (.datetime .D, 24) ∧
      timeMeaning .D 24 ≠ optAdd (timeMeaning .D 0) (timeMeaning .h 24) ∧
      timeBinary .sub false (.datetime .D) (.datetime .h) 1 24 = some (.datetime .D, -23) := by decide

/-- C61 for two dates whose second is in the same or a longer unit, not NaT, no overflow: every
comparison agrees with the order of the times.  Missing: NaT, and a second operand in a shorter
unit. -/
theorem C61_compare_partial {u w : TimeUnit} {k l x y : Int} (hk : nanos u = some k) (hl : nanos w = some l) (hle : k ≤ l)
    (hx : x ≠ -2 ^ 63) (hy1 : -2 ^ 63 < y) (hy2 : y < 2 ^ 63) (hr1 : -2 ^ 63 < y * (l / k)) (hr2 : y * (l / k) < 2 ^ 63) :
    ∃ a b, timeMeaning u x = some a ∧ timeMeaning w y = some b ∧
      timeCompare (fun a b => decide (a < b)) (.datetime u) (.datetime w) x y = decide (a < b) ∧
      timeCompare (fun a b => decide (a ≤ b)) (.datetime u) (.datetime w) x y = decide (a ≤ b) ∧
      timeCompare (fun a b => decide (a = b)) (.datetime u) (.datetime w) x y = decide (a = b) := by
  have mx : timeMeaning u x = some (x * k) := by unfold timeMeaning; rw [if_neg hx, hk]; rfl
  have my : timeMeaning w y = some (y * l) := by unfold timeMeaning; rw [if_neg (by omega), hl]; rfl
  refine ⟨_, _, mx, my, ?_⟩
  obtain ⟨⟨q, rfl⟩, hpos⟩ := nanos_dvd hl hk hle
  rw [Int.mul_ediv_cancel_left _ (by omega)] at hr1 hr2
  have hp : promote (.datetime u) (.datetime w) = .datetime u := by
    unfold promote
    by_cases h : u = w
    · subst h; simp
    · simp [h, DType.isComplex, DType.isDatetime]
  have cx : timeCast (.datetime u) (.datetime u) x = x := by simp [timeCast]
  have cy : timeCast (.datetime w) (.datetime u) y = y * q := by
    unfold timeCast
    by_cases h : w = u
    · subst h
      rw [hk] at hl
      simp only [Option.some.injEq] at hl
      have : q = 1 := by
        have : k * q = k * 1 := by omega
        exact Int.eq_of_mul_eq_mul_left (by omega) this
      subst this
      simp
    · simp only [h, if_false]
      rw [convert_fixed hl hk (by unfold NaT; omega) h, if_pos hle, Int.mul_tdiv_cancel_left _ (by omega),
        wrap64_eq (by omega) hr2]
  unfold timeCompare
  dsimp only
  rw [hp, cx, cy]
  have e : y * (k * q) = (y * q) * k := by ring
  rw [e]
  refine ⟨?_, ?_, ?_⟩
  · exact decide_eq_decide.2 (Int.mul_lt_mul_right hpos).symm
  · exact decide_eq_decide.2 (Int.mul_le_mul_right hpos).symm
  · exact decide_eq_decide.2 ⟨fun h => by rw [h], fun h => Int.eq_of_mul_eq_mul_right (by omega) h⟩

example : timeCompare (fun a b => decide (a < b)) (.datetime .h) (.datetime .D) 25 1 = false ∧
    timeCompare (fun a b => decide (a < b)) (.datetime .h) (.datetime .D) 23 1 = true := by decide

/-- Noon equals midnight when the first operand is in days, but not when it is in hours; NaT equals
NaT and is before every date. -/
theorem C61_counterexample :
    timeCompare (fun a b => decide (a = b)) (.datetime .D) (.datetime .h) 0 12 = true ∧
      timeCompare (fun a b => decide (a = b)) (.datetime .h) (.datetime .D) 12 0 = false ∧
      timeMeaning .D 0 ≠ timeMeaning .h 12 ∧
      timeCompare (fun a b => decide (a = b)) (.datetime .D) (.datetime .D) NaT NaT = true ∧
      timeCompare (fun a b => decide (a < b)) (.datetime .D) (.datetime .D) NaT 0 = true := by decide

/-- C60: `is_busday` says whether the weekday is marked and the day is no holiday; NaT is no
business day. -/
theorem C60_is_busday (cal : BusCal) (n : Int) :
    isBusinessDay n cal = true ↔ n ≠ NaT ∧ BusinessDay cal.weekmask cal.holidays n := by
  by_cases h : n = NaT
  · subst h; simp [isBusinessDay]
  · simp [isBusinessDay_iff h, h]

/-- 1970-01-01 was a Thursday; 2021-01-01 a Friday; 1969-12-28 a Sunday. -/
example : let cal : BusCal := ⟨[true, true, true, true, true, false, false], [18628]⟩
    isBusinessDay 0 cal = true ∧ isBusinessDay 18628 cal = false ∧ isBusinessDay 18627 cal = true ∧
      isBusinessDay (-4) cal = false ∧ weekday 18628 = 4 ∧ weekday (-4) = 6 := by decide

/-- C60: `busday_count` counts the business days from the first date to the day before the second,
when the first is not later.  Missing: NumPy counts backwards when it is later. -/
theorem C60_count_partial {a b : Int} {cal : BusCal} (ha : NaT < a) (hab : a ≤ b) :
    busdayCount a b cal =
      (((Finset.Ico a b).filter fun n => BusinessDay cal.weekmask cal.holidays n).card : Int) := by
  unfold busdayCount
  rw [if_neg (by omega)]
  split
  · have : a = b := by omega
    subst this
    simp
  · have hf := foldl_count (fun i => isBusinessDay (a + i) cal) (List.range (b - a).toNat) 0
    rw [hf, countP_card (fun n => isBusinessDay n cal) a (b - a).toNat]
    have e : a + ((b - a).toNat : Int) = b := by omega
    rw [e, zero_add]
    congr 2
    apply Finset.filter_congr
    intro n hn
    rw [Finset.mem_Ico] at hn
    exact isBusinessDay_iff (by omega)

/-- From a later to an earlier date the count is 0 instead of the negative count. -/
theorem C60_count_counterexample :
    busdayCount 7 0 ⟨[true, true, true, true, true, false, false], []⟩ = 0 ∧
      busdayCount 0 7 ⟨[true, true, true, true, true, false, false], []⟩ = 5 := by decide

/-- C60: `busday_offset` by `k ≥ 0` ends on a business day with exactly `k` business days after the
start up to and including it; by `-k` the same towards the past. -/
theorem C60_offset_partial {date offset r : Int} {cal : BusCal} {fuel : Nat} (hd : NaT < date)
    (h : busdayOffset fuel date offset cal = some r) (hr : NaT < r) :
    (0 ≤ offset → date ≤ r ∧
      (((Finset.Ioc date r).filter fun n => BusinessDay cal.weekmask cal.holidays n).card : Int) = offset) ∧
    (offset < 0 → r ≤ date ∧
      (((Finset.Ico r date).filter fun n => BusinessDay cal.weekmask cal.holidays n).card : Int) = -offset) ∧
    (offset ≠ 0 → BusinessDay cal.weekmask cal.holidays r) := by
  unfold busdayOffset at h
  rw [if_neg (by omega)] at h
  by_cases ho : offset ≥ 0
  · rw [if_pos ho] at h
    obtain ⟨h1, h2, h3⟩ := busdayLoop_forward (by omega) h
    refine ⟨fun _ => ⟨h1, by rw [h2]; omega⟩, fun hn => by omega, fun hn => h3 (by omega)⟩
  · rw [if_neg ho] at h
    obtain ⟨h1, h2, h3⟩ := busdayLoop_backward h hr
    refine ⟨fun hn => by omega, fun _ => ⟨h1, by rw [h2]; omega⟩, fun hn => h3 (by omega)⟩

example : busdayOffset 10 0 2 ⟨[true, true, true, true, true, false, false], []⟩ = some 4 ∧
    busdayOffset 10 4 (-2) ⟨[true, true, true, true, true, false, false], []⟩ = some 0 := by decide

/-- C60: forward offsets always end when some weekday is marked. -/
theorem C60_offset_ends {date offset : Int} {cal : BusCal} {w : Nat} (hw : w < 7) (hm : cal.weekmask[w]? = some true)
    (ho : 0 ≤ offset) (hd : NaT < date) : ∃ fuel r, busdayOffset fuel date offset cal = some r := by
  obtain ⟨f, r, h⟩ := busdayLoop_terminates hw hm offset.natAbs date (by omega)
  refine ⟨f, r, ?_⟩
  unfold busdayOffset
  rw [if_neg (by omega), if_pos ho]
  exact h

/-- A calendar without business days is accepted, and then `busday_offset` never returns; an offset
of 0 from a holiday stays on the holiday. -/
theorem C60_offset_counterexample :
    (∀ fuel, busdayOffset fuel 0 1 ⟨List.replicate 7 false, []⟩ = none) ∧
      busdayOffset 0 2 0 ⟨[true, true, true, true, true, false, false], []⟩ = some 2 ∧
      ¬ BusinessDay [true, true, true, true, true, false, false] [] 2 := by
  refine ⟨fun fuel => ?_, by decide, by decide⟩
  unfold busdayOffset
  rw [if_neg (by decide)]
  exact busdayLoop_hangs (by simp) _ fuel 0 0

end Props
