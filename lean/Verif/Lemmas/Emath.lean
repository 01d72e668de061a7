import Mathlib.Analysis.SpecialFunctions.Complex.Arg
import Verif.Model.Emath
import Verif.Lemmas.Elementwise
import Verif.Lemmas.Select
/-!
# Lemmas about emath
-/

namespace Rumpy
open Spec

theorem hasValue_iff (p : ℝ → Prop) (mem : Int → Option ℝ) {v : View} (hw : v.WF) :
    hasValue p mem v = true ↔ ∃ i, InShape v.shape i ∧ ∃ x, (v.denote mem).get i = some x ∧ p x := by
  classical
  unfold hasValue
  split
  · next h =>
    constructor
    · intro h'; exact absurd h' (by decide)
    · rintro ⟨i, hi, -⟩
      have := rank_lt hi
      rw [← sizeOf_eq] at this
      omega
  · rw [addrs_eq hw, List.any_eq_true]
    constructor
    · rintro ⟨o, ho, h⟩
      obtain ⟨i, hi, rfl⟩ := List.mem_map.mp ho
      cases hm : mem (v.addr i) with
      | none => rw [hm] at h; exact absurd h (by simp)
      | some x =>
        rw [hm] at h
        exact ⟨i, mem_indices.mp hi, x, hm, by simpa using h⟩
    · rintro ⟨i, hi, x, hm, hp⟩
      have hm : mem (v.addr i) = some x := hm
      refine ⟨v.addr i, List.mem_map.mpr ⟨i, mem_indices.mpr hi, rfl⟩, ?_⟩
      rw [hm]
      simpa using hp

theorem mapOption_is {α β : Type} (f : α → β) (mem : Int → Option α) {v : View} (hw : v.WF) :
    (mapUnaryFallback (Option.map f) mem v none).Is ⟨v.shape, fun i => ((v.denote mem).get i).map f⟩ := by
  rw [mapUnaryFallback_eq _ mem hw none]
  exact ⟨rfl, rfl⟩

theorem withComplex_spec {p : ℝ → Prop} {fR : ℝ → ℝ} {fC : ℂ → ℂ} {val : ℝ → ℂ → Prop} (mem : Int → Option ℝ) {v : View} (hw : v.WF)
    (hR : ∀ x, ¬p x → val x (fR x : ℂ)) (hC : ∀ x : ℝ, val x (fC x)) :
    ((∃ i, InShape v.shape i ∧ ∃ x, (v.denote mem).get i = some x ∧ p x) →
      ∃ arr nd, withComplex p fR fC mem v = .inr arr ∧ arr.Is nd ∧ MapsTo val (v.denote mem) nd) ∧
    ((∀ i, InShape v.shape i → ∀ x, (v.denote mem).get i = some x → ¬p x) →
      ∃ arr nd, withComplex p fR fC mem v = .inl arr ∧ arr.Is nd ∧ MapsTo (fun x (y : ℝ) => val x (y : ℂ)) (v.denote mem) nd) := by
  constructor
  · intro h
    unfold withComplex
    rw [if_pos ((hasValue_iff p mem hw).mpr h)]
    refine ⟨_, _, rfl, mapOption_is (fun x : ℝ => fC (x : ℂ)) mem hw, rfl, fun i hi => ⟨?_, ?_⟩⟩
    · intro hn
      show Option.map _ ((v.denote mem).get i) = none
      rw [hn]; rfl
    · intro a ha
      refine ⟨fC a, ?_, hC a⟩
      show Option.map _ ((v.denote mem).get i) = _
      rw [ha]; rfl
  · intro h
    unfold withComplex
    rw [if_neg]
    · refine ⟨_, _, rfl, mapOption_is fR mem hw, rfl, fun i hi => ⟨?_, ?_⟩⟩
      · intro hn
        show Option.map _ ((v.denote mem).get i) = none
        rw [hn]; rfl
      · intro a ha
        refine ⟨fR a, ?_, hR a (h i hi a ha)⟩
        show Option.map _ ((v.denote mem).get i) = _
        rw [ha]; rfl
    · rw [hasValue_iff p mem hw]
      rintro ⟨i, hi, x, hx, hp⟩
      exact h i hi x hx hp

/-- The argument of a real number. -/
theorem arg_ofReal_nonneg (x : ℝ) : 0 ≤ Complex.arg (x : ℂ) := by
  rcases lt_or_ge x 0 with h | h
  · rw [Complex.arg_ofReal_of_neg h]; exact Real.pi_pos.le
  · rw [Complex.arg_ofReal_of_nonneg h]

end Rumpy
