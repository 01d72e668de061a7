import Verif.Model.BusDay
import Verif.Lemmas.Elementwise
import Verif.Lemmas.Cast
import Mathlib.Tactic.IntervalCases
/-!
# Lemmas: weekmasks and functions of arrays of dates
-/

namespace Rumpy
open Spec

/-- A text of names after it is put into lower case. -/
inductive LowText : List Nat → List Char → Prop
  | nil : LowText [] []
  | space {ds s} : LowText ds s → LowText ds (' ' :: s)
  | day {d ds s} : d < 7 → LowText ds s → LowText (d :: ds) (dayName d ++ s)

/-- How a text of names begins. -/
theorem LowText.start {ds : List Nat} {s : List Char} (h : LowText ds s) :
    s = [] ∨ (∃ t, s = ' ' :: t) ∨ ∃ e t, e < 7 ∧ s = dayName e ++ t := by
  cases h with
  | nil => exact Or.inl rfl
  | space => exact Or.inr (Or.inl ⟨_, rfl⟩)
  | day hd _ => exact Or.inr (Or.inr ⟨_, _, hd, rfl⟩)

theorem containsText_day {ds : List Nat} {s : List Char} (h : LowText ds s) {d : Nat} (hd : d < 7) :
    containsText (dayName d) s = decide (d ∈ ds) := by
  induction h with
  | nil => interval_cases d <;> rfl
  | space _ ih =>
    rw [containsText, ih]
    interval_cases d <;> simp [dayName]
  | @day e ds s he hs ih =>
    have key : containsText (dayName d) (dayName e ++ s) = (decide (d = e) || containsText (dayName d) s) := by
      rcases hs.start with rfl | ⟨t, rfl⟩ | ⟨f, t, hf, rfl⟩
      · interval_cases d <;> interval_cases e <;> rfl
      · interval_cases d <;> interval_cases e <;> simp [dayName, containsText, List.isPrefixOf]
      · interval_cases d <;> interval_cases e <;> interval_cases f <;> simp [dayName, containsText, List.isPrefixOf]
    rw [key, ih]
    simp

theorem dayText_low {lower : Char → List Char} (hl : ∀ c : Char, c.toLower ∈ ' ' :: (List.range 7).flatMap dayName → lower c = [c.toLower])
    {ds : List Nat} {s : List Char} (h : DayText ds s) : LowText ds (s.flatMap lower) := by
  induction h with
  | nil => exact LowText.nil
  | space _ ih =>
    rw [List.flatMap_cons, hl ' ' (by decide)]
    exact LowText.space ih
  | @day d ds w s hd hw _ ih =>
    rw [List.flatMap_append]
    have : w.flatMap lower = dayName d := by
      rw [← hw]
      have hm : ∀ c ∈ w, c.toLower ∈ ' ' :: (List.range 7).flatMap dayName := by
        intro c hc
        have h1 : c.toLower ∈ dayName d := hw ▸ List.mem_map_of_mem hc
        exact List.mem_cons_of_mem _ (List.mem_flatMap.mpr ⟨d, List.mem_range.mpr hd, h1⟩)
      clear hw
      induction w with
      | nil => rfl
      | cons c w ih =>
        rw [List.flatMap_cons, hl c (hm c (List.mem_cons_self ..)), ih fun c hc => hm c (List.mem_cons_of_mem _ hc)]
        rfl
    rw [this]
    exact LowText.day hd ih

/-- A text without letters contains no name. -/
theorem containsText_none {pat : List Char} {c : Char} {p : List Char} (hp : pat = c :: p) {s : List Char} (h : c ∉ s) :
    containsText pat s = false := by
  induction s with
  | nil => subst hp; rfl
  | cons a s ih =>
    rw [containsText, ih fun hc => h (List.mem_cons_of_mem _ hc)]
    subst hp
    have : (c == a) = false := beq_eq_false_iff_ne.mpr fun e => h (e ▸ List.mem_cons_self ..)
    simp [List.isPrefixOf, this]

theorem dateLoop_is {β : Type} (f : Int → β) (mem : Int → Int) {v : View} (hw : v.WF) (hs : ∀ s ∈ v.strides, (8 : Int) ∣ s) (zero : β) :
    (dateLoop f mem v zero).Is ⟨v.shape, fun i => f ((v.denote mem).get i)⟩ := by
  refine ⟨rfl, ?_⟩
  unfold dateLoop
  dsimp only
  rw [writes_addrs hw (fun o => f (mem (v.offset + (o - v.offset).tdiv 8 * 8))) _ (by rw [List.length_replicate, sizeOf_eq])]
  unfold Nd.toList
  apply List.map_congr_left
  intro i _
  dsimp only
  have : v.offset + (v.addr i - v.offset).tdiv 8 * 8 = v.addr i := by
    unfold View.addr
    rw [add_sub_cancel_left, Int.tdiv_mul_cancel]
    have : ∀ (idx : List Nat) (st : List Int), (∀ s ∈ st, (8 : Int) ∣ s) → (8 : Int) ∣ byteOffset idx st := by
      intro idx
      induction idx with
      | nil => intro st _; simp [byteOffset]
      | cons k idx ih =>
        intro st h
        cases st with
        | nil => simp [byteOffset]
        | cons s st =>
          have h1 := ih st fun s hs => h s (List.mem_cons_of_mem _ hs)
          have h2 := h s (List.mem_cons_self ..)
          simp only [byteOffset]
          exact dvd_add (Dvd.dvd.mul_left h2 _) h1
    exact this i v.strides hs
  rw [this]; rfl

end Rumpy
