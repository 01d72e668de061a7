import Verif.Spec.Stats
import Verif.Model.Stats
import Verif.Lemmas.Cumulative
import Verif.Props.Partition
import Mathlib.Tactic.Linarith
import Mathlib.Tactic.FieldSimp
import Mathlib.Algebra.Order.Floor.Ring
/-!
# Lemmas: counts, histograms, percentiles and medians
-/

namespace Rumpy
open Spec

theorem ratToUsize_nonneg {x : Rat} (h : 0 ≤ x) : ((ratToUsize x : Nat) : Rat) ≤ x ∧ x < ratToUsize x + 1 := by
  have hf : 0 ≤ ⌊x⌋ := Int.floor_nonneg.2 h
  have e : ((ratToUsize x : Nat) : Rat) = ((⌊x⌋ : Int) : Rat) := by
    unfold ratToUsize
    rw [← Int.cast_natCast, Int.toNat_of_nonneg hf]
  rw [e]
  exact ⟨Int.floor_le x, Int.lt_floor_add_one x⟩

theorem ratToUsize_natCast (k : Nat) : ratToUsize (k : Rat) = k := by
  unfold ratToUsize; simp

theorem ratToI64_natCast (k : Nat) : ratToI64 (k : Rat) = k := by
  unfold ratToI64; rw [if_pos (by positivity)]; simp

theorem ratToI64_neg_iff (x : Rat) : ratToI64 x < 0 ↔ x ≤ -1 := by
  unfold ratToI64
  by_cases h : 0 ≤ x
  · rw [if_pos h]
    constructor
    · intro h'; exact absurd h' (not_lt.2 (Int.floor_nonneg.2 h))
    · intro h'; linarith
  · rw [if_neg h]
    rw [show (⌈x⌉ < 0 ↔ x ≤ -1) by
      rw [show (⌈x⌉ < 0 ↔ ⌈x⌉ ≤ -1) by omega, Int.ceil_le]; norm_num]

/-- Counting into a vector of zeros: entry `i` is the number of items sent to `i`. -/
theorem count_fold {α β : Type} [CommSemiring β] (g : α → Option Nat) (step : List β → α → Option (List β)) {n : Nat} :
    ∀ (l : List α) (init : List β), init.length = n →
      (∀ c x, x ∈ l → c.length = n → step c x = some (match g x with | none => c | some b => c.modify b (· + 1))) →
      ∃ c, l.foldlM step init = some c ∧ c.length = n ∧
        ∀ i, i < n → c[i]? = some (init.getD i 0 + ((l.countP fun x => g x = some i : Nat) : β))
  | [], init, hn, _ => ⟨init, rfl, hn, fun i hi => by simp [List.getD_eq_getElem _ _ (hn ▸ hi), hn, hi]⟩
  | x :: l, init, hn, h => by
    rw [List.foldlM_cons, h init x (by simp) hn]
    have hn' : (match g x with | none => init | some b => init.modify b (· + 1)).length = n := by
      cases g x <;> simp [hn]
    obtain ⟨c, hc, hl, hi⟩ := count_fold g step l _ hn' (fun c y hy => h c y (by simp [hy]))
    refine ⟨c, hc, hl, fun i hin => ?_⟩
    rw [hi i hin, Option.some.injEq, List.countP_cons]
    cases hg : g x with
    | none => simp
    | some b =>
      dsimp only
      by_cases hb : b = i
      · subst hb
        rw [List.getD_eq_getElem _ _ (by simp [hn, hin]), List.getElem_modify_eq,
          List.getD_eq_getElem _ _ (by simp [hn, hin])]
        simp only [decide_true, if_true]
        push_cast; ring
      · rw [List.getD_eq_getElem _ _ (by simp [hn, hin]), List.getElem_modify, if_neg hb,
          List.getD_eq_getElem _ _ (by simp [hn, hin])]
        simp [hb]

/-- As a list: `n` counts. -/
theorem count_fold_zero {α β : Type} [CommSemiring β] (g : α → Option Nat) (step : List β → α → Option (List β))
    (n : Nat) (l : List α)
    (h : ∀ c x, x ∈ l → c.length = n → step c x = some (match g x with | none => c | some b => c.modify b (· + 1))) :
    l.foldlM step (List.replicate n 0) =
      some ((List.range n).map fun i => ((l.countP fun x => g x = some i : Nat) : β)) := by
  obtain ⟨c, hc, hl, hi⟩ := count_fold g step l (List.replicate n 0) (by simp) h
  rw [hc, Option.some.injEq]
  apply List.ext_getElem? fun i => ?_
  by_cases hin : i < n
  · rw [hi i hin]; simp [hin]
  · rw [List.getElem?_eq_none (by omega), List.getElem?_eq_none (by simp; omega)]

/-! ### bins -/

theorem edge_last (lo hi : Rat) {bins : Nat} (hb : 0 < bins) : edge lo hi bins bins = hi := by
  unfold edge
  have : (bins : Rat) ≠ 0 := by positivity
  field_simp; ring

theorem edge_le {lo hi : Rat} (h : lo ≤ hi) {bins i j : Nat} (hij : i ≤ j) : edge lo hi bins i ≤ edge lo hi bins j := by
  unfold edge
  have : (i : Rat) ≤ j := by exact_mod_cast hij
  have hw : 0 ≤ (hi - lo) / bins := div_nonneg (by linarith) (by positivity)
  nlinarith

theorem inBin_le {lo hi : Rat} (h : lo ≤ hi) {bins i : Nat} {x : Rat} (hx : InBin lo hi bins i x) : lo ≤ x ∧ x ≤ hi := by
  obtain ⟨h1, h2, h3⟩ := hx
  have e0 : lo ≤ edge lo hi bins i := by
    have := edge_le h (bins := bins) (Nat.zero_le i)
    simpa [edge] using this
  refine ⟨by linarith, ?_⟩
  rcases h3 with h3 | ⟨-, rfl⟩
  · have := edge_le h (bins := bins) (show i + 1 ≤ bins by omega)
    rw [edge_last lo hi (by omega)] at this
    linarith
  · exact le_refl _

/-- A value is in at most one bin. -/
theorem inBin_unique {lo hi : Rat} (h : lo < hi) {bins i j : Nat} {x : Rat} (hi' : InBin lo hi bins i x)
    (hj : InBin lo hi bins j x) : i = j := by
  have key : ∀ {i j : Nat}, InBin lo hi bins i x → InBin lo hi bins j x → ¬ i < j := by
    intro i j ⟨h1, h2, h3⟩ ⟨g1, g2, g3⟩ hij
    rcases h3 with h3 | ⟨h3, -⟩
    · have := edge_le h.le (bins := bins) (show i + 1 ≤ j by omega)
      linarith
    · omega
  rcases Nat.lt_trichotomy i j with h1 | h1 | h1
  · exact absurd h1 (key hi' hj)
  · exact h1
  · exact absurd h1 (key hj hi')

/-- The bin computed for a value in the range is its bin. -/
theorem binIndex_spec {lo hi : Rat} (h : lo < hi) {bins : Nat} (hb : 0 < bins) {x : Rat} (h1 : lo ≤ x) (h2 : x ≤ hi) :
    ∃ i, binIndex lo ((hi - lo) / bins) bins x = some i ∧ InBin lo hi bins i x := by
  have hb' : (0 : Rat) < bins := by exact_mod_cast hb
  have hw : 0 < (hi - lo) / bins := div_pos (by linarith) hb'
  have hq : 0 ≤ (x - lo) / ((hi - lo) / bins) := div_nonneg (by linarith) hw.le
  obtain ⟨q1, q2⟩ := ratToUsize_nonneg hq
  unfold binIndex
  dsimp only
  generalize ratToUsize ((x - lo) / ((hi - lo) / bins)) = k at q1 q2
  rw [le_div_iff₀ hw] at q1
  rw [div_lt_iff₀ hw] at q2
  by_cases hk : k ≥ bins
  · rw [if_pos hk, if_neg (by omega)]
    refine ⟨_, rfl, by omega, ?_, Or.inr ⟨by omega, ?_⟩⟩
    · have hk' : ((bins - 1 : Nat) : Rat) ≤ k := by exact_mod_cast (by omega : bins - 1 ≤ k)
      unfold edge
      nlinarith
    · have hk' : (bins : Rat) ≤ k := by exact_mod_cast hk
      have : (bins : Rat) * ((hi - lo) / bins) = hi - lo := by field_simp
      nlinarith
  · rw [if_neg hk]
    refine ⟨_, rfl, by omega, ?_, Or.inl ?_⟩
    · unfold edge; linarith
    · unfold edge; push_cast; linarith

theorem binIndex_eq_some_iff {lo hi : Rat} (h : lo < hi) {bins : Nat} (hb : 0 < bins) {x : Rat} (h1 : lo ≤ x) (h2 : x ≤ hi)
    (i : Nat) : binIndex lo ((hi - lo) / bins) bins x = some i ↔ InBin lo hi bins i x := by
  obtain ⟨k, hk, hin⟩ := binIndex_spec h hb h1 h2
  rw [hk, Option.some.injEq]
  constructor
  · rintro rfl; exact hin
  · intro hi'; exact inBin_unique h hin hi'

end Rumpy
