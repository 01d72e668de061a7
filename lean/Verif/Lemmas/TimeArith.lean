import Verif.Model.TimeArith
import Verif.Spec.Time
import Verif.Lemmas.Datetime
import Mathlib.Data.Int.Interval
/-!
# Lemmas: business days
-/

namespace Rumpy
open Spec

theorem dow_eq (n : Int) : ((n.tmod 7 + 7 + 3).tmod 7) = weekday n := by
  unfold weekday
  have h1 : n.tmod 7 = n % 7 ∨ n.tmod 7 = n % 7 - 7 := by
    rw [Int.tmod_eq_emod]
    split <;> simp
  rcases h1 with h | h <;> rw [h, Int.tmod_eq_emod_of_nonneg (by omega)] <;> omega

theorem isBusinessDay_iff {n : Int} {cal : BusCal} (hn : n ≠ NaT) :
    isBusinessDay n cal = true ↔ BusinessDay cal.weekmask cal.holidays n := by
  unfold isBusinessDay BusinessDay
  rw [if_neg hn, dow_eq]
  by_cases h : n ∈ cal.holidays
  · simp [h]
  · simp only [List.contains_iff_mem, h, if_false, not_false_eq_true, and_true]
    rw [List.getD_eq_getElem?_getD]
    cases cal.weekmask[(weekday n).toNat]? with
    | none => simp
    | some b => cases b <;> simp

/-- Counting loop. -/
theorem foldl_count (p : Nat → Bool) (l : List Nat) (c : Int) :
    l.foldl (fun count i => if p i then count + 1 else count) c = c + (l.countP p : Int) := by
  induction l generalizing c with
  | nil => simp
  | cons x xs ih =>
    rw [List.foldl_cons, ih, List.countP_cons]
    by_cases h : p x = true <;> simp [h] <;> ring

theorem countP_card (p : Int → Bool) (a : Int) (k : Nat) :
    (List.range k).countP (fun i : Nat => p (a + i)) = ((Finset.Ico a (a + k)).filter fun n => p n = true).card := by
  induction k with
  | zero => simp
  | succ k ih =>
    rw [List.range_succ, List.countP_append, ih]
    have : Finset.Ico a (a + ((k + 1 : Nat) : Int)) = insert (a + k) (Finset.Ico a (a + k)) := by
      ext n
      simp only [Finset.mem_Ico, Finset.mem_insert]
      push_cast
      omega
    rw [this, Finset.filter_insert]
    by_cases h : p (a + k) = true
    · rw [if_pos h, Finset.card_insert_of_notMem (by simp)]
      simp [h]
    · rw [if_neg h]
      simp [h]

/-- Forward loop: the number of business days passed. -/
theorem busdayLoop_forward {cal : BusCal} {fuel rem : Nat} {cur r : Int} (hcur : NaT ≤ cur)
    (h : busdayLoop cal 1 fuel rem cur = some r) :
    cur ≤ r ∧ ((Finset.Ioc cur r).filter fun n => BusinessDay cal.weekmask cal.holidays n).card = rem ∧
      (0 < rem → BusinessDay cal.weekmask cal.holidays r) := by
  induction fuel generalizing rem cur with
  | zero =>
    cases rem with
    | zero => simp only [busdayLoop, Option.some.injEq] at h; subst h; simp
    | succ _ => simp [busdayLoop] at h
  | succ fuel ih =>
    cases rem with
    | zero => simp only [busdayLoop, Option.some.injEq] at h; subst h; simp
    | succ rem =>
      unfold busdayLoop at h
      dsimp only at h
      have hne : cur + 1 ≠ NaT := by omega
      have hsplit : ∀ r, cur + 1 ≤ r → Finset.Ioc cur r = insert (cur + 1) (Finset.Ioc (cur + 1) r) := by
        intro r hr
        ext n
        simp only [Finset.mem_Ioc, Finset.mem_insert]
        omega
      split at h
      · rename_i hb
        rw [isBusinessDay_iff hne] at hb
        obtain ⟨h1, h2, h3⟩ := ih (by omega) h
        refine ⟨by omega, ?_, ?_⟩
        · rw [hsplit r h1, Finset.filter_insert, if_pos hb, Finset.card_insert_of_notMem (by simp), h2]
        · intro _
          by_cases hr : 0 < rem
          · exact h3 hr
          · have : rem = 0 := by omega
            subst this
            have : busdayLoop cal 1 fuel 0 (cur + 1) = some (cur + 1) := by cases fuel <;> rfl
            rw [this] at h
            simp only [Option.some.injEq] at h
            rwa [← h]
      · rename_i hb
        rw [isBusinessDay_iff hne] at hb
        obtain ⟨h1, h2, h3⟩ := ih (by omega) h
        refine ⟨by omega, ?_, h3⟩
        rw [hsplit r h1, Finset.filter_insert, if_neg hb, h2]

/-- Backward loop. -/
theorem busdayLoop_backward {cal : BusCal} {fuel rem : Nat} {cur r : Int}
    (h : busdayLoop cal (-1) fuel rem cur = some r) (hr : NaT < r) :
    r ≤ cur ∧ ((Finset.Ico r cur).filter fun n => BusinessDay cal.weekmask cal.holidays n).card = rem ∧
      (0 < rem → BusinessDay cal.weekmask cal.holidays r) := by
  induction fuel generalizing rem cur with
  | zero =>
    cases rem with
    | zero => simp only [busdayLoop, Option.some.injEq] at h; subst h; simp
    | succ _ => simp [busdayLoop] at h
  | succ fuel ih =>
    cases rem with
    | zero => simp only [busdayLoop, Option.some.injEq] at h; subst h; simp
    | succ rem =>
      unfold busdayLoop at h
      dsimp only at h
      have hsplit : r ≤ cur + -1 → Finset.Ico r cur = insert (cur + -1) (Finset.Ico r (cur + -1)) := by
        intro hr
        ext n
        simp only [Finset.mem_Ico, Finset.mem_insert]
        omega
      split at h
      · rename_i hb
        obtain ⟨h1, h2, h3⟩ := ih h
        rw [isBusinessDay_iff (by omega)] at hb
        refine ⟨by omega, ?_, ?_⟩
        · rw [hsplit h1, Finset.filter_insert, if_pos hb, Finset.card_insert_of_notMem (by simp), h2]
        · intro _
          by_cases hr : 0 < rem
          · exact h3 hr
          · have : rem = 0 := by omega
            subst this
            have : busdayLoop cal (-1) fuel 0 (cur + -1) = some (cur + -1) := by cases fuel <;> rfl
            rw [this] at h
            simp only [Option.some.injEq] at h
            rwa [← h]
      · rename_i hb
        obtain ⟨h1, h2, h3⟩ := ih h
        rw [isBusinessDay_iff (by omega)] at hb
        refine ⟨by omega, ?_, h3⟩
        rw [hsplit h1, Finset.filter_insert, if_neg hb, h2]

/-- With a marked weekday there is a business day after any given day. -/
theorem exists_business_after {cal : BusCal} {w : Nat} (hw : w < 7) (hm : cal.weekmask[w]? = some true) (m : Int) :
    ∃ n, m < n ∧ BusinessDay cal.weekmask cal.holidays n := by
  obtain ⟨M, hM1, hM2⟩ : ∃ M : Int, m ≤ M ∧ ∀ h ∈ cal.holidays, h ≤ M := by
    induction cal.holidays with
    | nil => exact ⟨m, le_refl _, by simp⟩
    | cons x xs ih =>
      obtain ⟨M, h1, h2⟩ := ih
      refine ⟨max M x, by omega, ?_⟩
      intro h hh
      rcases List.mem_cons.1 hh with rfl | hh
      · omega
      · have := h2 h hh; omega
  refine ⟨(M / 7 + 2) * 7 + w - 3, by omega, ?_, ?_⟩
  · have : weekday ((M / 7 + 2) * 7 + w - 3) = w := by unfold weekday; omega
    rw [this, Int.toNat_natCast]
    exact hm
  · intro h
    have := hM2 _ h
    omega

theorem busdayLoop_mono {cal : BusCal} {step : Int} {f g rem : Nat} {cur r : Int} (hfg : f ≤ g)
    (h : busdayLoop cal step f rem cur = some r) : busdayLoop cal step g rem cur = some r := by
  induction f generalizing g rem cur with
  | zero =>
    cases rem with
    | zero => cases g <;> simpa [busdayLoop] using h
    | succ _ => simp [busdayLoop] at h
  | succ f ih =>
    cases rem with
    | zero => cases g <;> simpa [busdayLoop] using h
    | succ rem =>
      obtain ⟨g, rfl⟩ : ∃ g', g = g' + 1 := ⟨g - 1, by omega⟩
      unfold busdayLoop at h ⊢
      dsimp only at h ⊢
      split at h <;> rename_i hb
      · rw [if_pos hb]; exact ih (by omega) h
      · rw [if_neg hb]; exact ih (by omega) h

/-- The forward loop ends. -/
theorem busdayLoop_terminates {cal : BusCal} {w : Nat} (hw : w < 7) (hm : cal.weekmask[w]? = some true)
    (rem : Nat) (cur : Int) (hcur : NaT ≤ cur) : ∃ fuel r, busdayLoop cal 1 fuel rem cur = some r := by
  induction rem generalizing cur with
  | zero => exact ⟨0, cur, rfl⟩
  | succ rem ih =>
    obtain ⟨n, hn, hb⟩ := exists_business_after (cal := cal) hw hm cur
    obtain ⟨k, hk⟩ : ∃ k : Nat, n = cur + (k + 1) := ⟨(n - cur - 1).toNat, by omega⟩
    clear hn
    induction k generalizing cur with
    | zero =>
      obtain ⟨f, r, hr⟩ := ih (cur + 1) (by omega)
      refine ⟨f + 1, r, ?_⟩
      unfold busdayLoop
      dsimp only
      have : n = cur + 1 := by simpa using hk
      rw [if_pos ((isBusinessDay_iff (by omega)).2 (this ▸ hb))]
      exact hr
    | succ k ihk =>
      by_cases hb' : isBusinessDay (cur + 1) cal = true
      · obtain ⟨f, r, hr⟩ := ih (cur + 1) (by omega)
        refine ⟨f + 1, r, ?_⟩
        unfold busdayLoop
        dsimp only
        rw [if_pos hb']
        exact hr
      · obtain ⟨f, r, hr⟩ := ihk (cur + 1) (by omega) (by push_cast at hk ⊢; omega)
        refine ⟨f + 1, r, ?_⟩
        unfold busdayLoop
        dsimp only
        rw [if_neg hb']
        exact hr

/-- Without a marked weekday the loop never ends. -/
theorem busdayLoop_hangs {cal : BusCal} (hm : ∀ b ∈ cal.weekmask, b = false) (step : Int) (fuel rem : Nat) (cur : Int) :
    busdayLoop cal step fuel (rem + 1) cur = none := by
  induction fuel generalizing cur with
  | zero => rfl
  | succ fuel ih =>
    unfold busdayLoop
    dsimp only
    have : isBusinessDay (cur + step) cal = false := by
      unfold isBusinessDay
      split
      · rfl
      · split
        · rfl
        · rw [List.getD_eq_getElem?_getD]
          cases h : cal.weekmask[((cur + step).tmod 7 + 7 + 3).tmod 7 |>.toNat]? with
          | none => rfl
          | some b => exact hm b (List.mem_of_getElem? h)
    rw [this]
    simpa using ih (cur + step)

end Rumpy
