import Verif.Lemmas.NanReduce
import Verif.Props.Moments
import Mathlib.Order.OrderDual
/-! # C78: reductions that leave NaN out, along axes and over whole arrays -/

namespace Props
open Spec Rumpy

/-- An array over ℚ with NaN, for the examples. -/
def nanHeld (shape : List Nat) (data : List (Option ℚ)) : Held (Option ℚ) := Held.of ⟨shape, data⟩ 8 none

/-- An array with infinities and NaN, for the examples. -/
def infHeld (shape : List Nat) (data : List (Option (WithBot Int))) : Held (Option (WithBot Int)) := Held.of ⟨shape, data⟩ 8 none

/-! ### Sums and products -/

/-- Along an axis that is not empty, each element is the sum (product) of the numbers of its lane, on the kernels for floats and on
the path for other dtypes, in any layout. -/
theorem C78_sum_axis {α : Type} (float : Bool) (op : α → α → α) (e zero : α) (assoc : ∀ a b c, op (op a b) c = op a (op b c))
    (comm : ∀ a b, op a b = op b a) (ident : ∀ a, op e a = a) (h : Held (Option α)) (hw : h.view.WF) (hi : 0 < h.view.item) (ax : Nat)
    (hax : ax < h.view.shape.length) (h2 : 2 ≤ h.view.shape.length) (hn : h.view.shape.getD ax 0 ≠ 0) :
    ∃ r, nanReduceStep float op e zero h ax = some r ∧
      r.Is ⟨h.view.shape.eraseIdx ax, fun idx => some ((numbers (h.nd.lane ax idx)).foldl op e)⟩ :=
  (nanReduceStep_ok float zero assoc comm ident).step h ax hw hi hax h2 hn

/-- Over several distinct axes, each element is the sum (product) of all the numbers along them. -/
theorem C78_sum_axes_partial {α : Type} (float : Bool) (op : α → α → α) (e zero : α) (assoc : ∀ a b c, op (op a b) c = op a (op b c))
    (comm : ∀ a b, op a b = op b a) (ident : ∀ a, op e a = a) (full : Held (Option α) → Option α) (item : Nat) (hitem : 0 < item)
    (h : Held (Option α)) (hw : h.view.WF) (hi : 0 < h.view.item) (hpos : ∀ n ∈ h.view.shape, n ≠ 0)
    (l : List Int) (ks : List Nat) (h0 : l ≠ []) (hk : List.Forall₂ (IsAxis h.view.shape.length) l ks) (hn : ks.Nodup) :
    (ks.length < h.view.shape.length →
      ∃ r, reduceFn full (nanReduceStep float op e zero) item none h (.many l) = .ok (.array r) ∧
        r.nd.Same (h.nd.collapse (fun xs => some ((numbers xs).foldl op e)) ks)) ∧
    (ks.length = h.view.shape.length →
      ∃ r, reduceFn full (nanReduceStep float op e zero) item none h (.many l) = .ok (.array r) ∧
        r.nd.Same ⟨[1], fun _ => some ((numbers h.nd.toList).foldl op e)⟩) := by
  have hne : ks ≠ [] := by rintro rfl; cases hk; exact h0 rfl
  constructor
  · intro hlen
    obtain ⟨r, h1, -, h3⟩ := reduceAxes_ok (nanReduceStep_ok float zero assoc comm ident) hitem none hw hi hne hn (isAxis_lt hk) hlen hpos
    exact ⟨r, reduceFn_many h0 hk h1, h3⟩
  · intro hlen
    obtain ⟨r, h1, -, h3⟩ := reduceAxes_all (nanReduceStep_ok float zero assoc comm ident) hitem none hw hi hne hn (isAxis_lt hk) hlen hpos
    exact ⟨r, reduceFn_many h0 hk h1, h3⟩

example : nanReduceStep true (· + ·) 0 0 (nanHeld [2, 3] [some 1, none, some 3, none, none, some 5]) 0 = some ⟨[3], [some 1, some 0, some 8]⟩ ∧
    nanReduceStep false (· + ·) 0 0 (nanHeld [2, 3] [some 1, none, some 3, none, none, some 5]) 1 = some ⟨[2], [some 4, some 5]⟩ := by
  decide +kernel
example : shown (reduceFn (fun _ => none) (nanReduceStep true (· + ·) 0 0) 8 none
    (nanHeld [2, 2, 2] [some 1, none, some 3, none, none, none, some 5, some 7]) (.many [-1, 0])) = some ([2], [some 1, some 15]) := by
  decide +kernel

/-! ### Means and variances -/

/-- The mean of the numbers of a whole array. -/
theorem C78_mean {K : Type} [Field K] (h : Held (Option K)) (hw : h.view.WF) : nanMeanAll h = nanMeanOf h.nd.toList := by
  unfold nanMeanAll
  rw [addrs_map hw, nanMeanLane_eq]
  split
  · next h0 =>
    have : h.nd.toList = [] := List.eq_nil_of_length_eq_zero (by rw [nd_length, h0])
    rw [this]; rfl
  · rfl

/-- The variance of the numbers of a whole array. -/
theorem C78_var {K : Type} [Field K] (h : Held (Option K)) (hw : h.view.WF) : nanVarAll h = nanVarOf h.nd.toList := by
  unfold nanVarAll
  rw [C78_mean h hw]
  unfold nanMeanOf nanVarOf
  by_cases h0 : numbers h.nd.toList = []
  · rw [if_pos h0, if_pos h0]
  · rw [if_neg h0, if_neg h0]
    dsimp only
    have key : ∀ (m : K) (l : List (Option K)) (s : K × Nat), l.foldl (squareCountStep m) s =
        (s.1 + ((numbers l).map fun x => (x - m) ^ 2).sum, s.2 + (numbers l).length) := by
      intro m l
      induction l with
      | nil => intro s; simp [numbers]
      | cons v l ih =>
        intro s
        cases v with
        | none => exact ih s
        | some x =>
          rw [List.foldl_cons, ih, squareCountStep, numbers_cons_some, List.map_cons, List.sum_cons, List.length_cons]
          simp only [Prod.mk.injEq]
          exact ⟨by ring, by omega⟩
    rw [addrs_map hw, key]
    show some ((0 + _) / ((0 + _ : Nat) : K)) = _
    rw [zero_add, zero_add]
    unfold momentOf meanOf
    rw [List.length_map]
    rfl

/-- Along an axis that is not empty, the mean and the variance of the numbers of each lane. -/
theorem C78_mean_axis {K : Type} [Field K] (h : Held (Option K)) (ax : Nat) (hax : ax < h.view.shape.length)
    (h2 : 2 ≤ h.view.shape.length) (hn : h.view.shape.getD ax 0 ≠ 0) :
    (∃ r, nanMeanStep h ax = some r ∧ r.Is ⟨h.view.shape.eraseIdx ax, fun idx => nanMeanOf (h.nd.lane ax idx)⟩) ∧
    ∃ r, nanVarStep h ax = some r ∧ r.Is ⟨h.view.shape.eraseIdx ax, fun idx => nanVarOf (h.nd.lane ax idx)⟩ := by
  constructor
  · obtain ⟨r, h1, h3⟩ := nanAxis_is (f := nanMeanLane) (zero := some (0 : K)) hax h2 hn
    rw [show (nanMeanLane : List (Option K) → _) = nanMeanOf from funext nanMeanLane_eq] at h3
    exact ⟨r, h1, h3⟩
  · obtain ⟨r, h1, h3⟩ := nanAxis_is (f := nanVarLane) (zero := some (0 : K)) hax h2 hn
    rw [show (nanVarLane : List (Option K) → _) = nanVarOf from funext nanVarLane_eq] at h3
    exact ⟨r, h1, h3⟩

/-- NaN has no influence, wherever it stands: arrays of any shapes with the same numbers have the same mean and variance. -/
theorem C78_mean_numbers {K : Type} [Field K] (h g : Held (Option K)) (hw : h.view.WF) (gw : g.view.WF)
    (hsame : numbers h.nd.toList = numbers g.nd.toList) : nanMeanAll h = nanMeanAll g ∧ nanVarAll h = nanVarAll g := by
  rw [C78_mean h hw, C78_mean g gw, C78_var h hw, C78_var g gw]
  unfold nanMeanOf nanVarOf
  rw [hsame]
  exact ⟨rfl, rfl⟩

example : nanMeanStep (nanHeld [2, 2] [some 1, none, some 3, none]) 0 = some ⟨[2], [some 2, none]⟩ ∧
    nanVarStep (nanHeld [2, 2] [some 1, none, some 3, none]) 0 = some ⟨[2], [some 1, none]⟩ ∧
    nanMeanAll (nanHeld [2, 2] [some 1, none, some 3, none]) = some 2 ∧ nanVarAll (nanHeld [2, 2] [some 1, none, some 3, none]) = some 1 := by
  decide +kernel

/-- Over several axes the code takes means of means and variances of variances. The mean of the numbers 1, 3, 5 comes out as 5/2, and
the variance of 1, 2, 3, 4 as 0. -/
theorem C78_mean_axes_counterexample :
    shown (reduceFn nanMeanAll nanMeanStep 8 none (nanHeld [2, 2] [some 1, none, some 3, some 5]) (.many [0, 1])) = some ([1], [some (5 / 2)]) ∧
    nanMeanOf (nanHeld [2, 2] [some 1, none, some 3, some 5]).nd.toList = some 3 ∧
    shown (reduceFn nanVarAll nanVarStep 8 none (nanHeld [2, 2] [some 1, some 2, some 3, some 4]) (.many [0, 1])) = some ([1], [some 0]) ∧
    nanVarOf (nanHeld [2, 2] [some 1, some 2, some 3, some 4]).nd.toList = some (5 / 4) := by decide +kernel

/-- Along an empty axis the mean and variance are 0 and not NaN, and a product is 0 and not 1 when the dtype has no kernel. The result for
a vector has one axis. -/
theorem C78_empty_counterexample :
    nanMeanStep (nanHeld [2, 0] []) 1 = some ⟨[2], [some 0, some 0]⟩ ∧ nanVarStep (nanHeld [2, 0] []) 1 = some ⟨[2], [some 0, some 0]⟩ ∧
    nanReduceStep false (· * ·) 1 0 (nanHeld [2, 0] []) 1 = some ⟨[2], [some 0, some 0]⟩ ∧
    nanMeanStep (nanHeld [2] [some 1, some 2]) 0 = some ⟨[1], [some (3 / 2)]⟩ := by decide +kernel

/-! ### Extremes -/

/-- Along an axis that is not empty: the largest number of each lane, and on the path for dtypes without kernels NaN for a lane of NaN.
Missing: lanes of NaN on the kernels for float32 and float64. -/
theorem C78_max_axis_partial {α : Type} [LinearOrder α] [OrderBot α] (float : Bool) (zero : α) (h : Held (Option α)) (hw : h.view.WF)
    (hi : 0 < h.view.item) (ax : Nat) (hax : ax < h.view.shape.length) (h2 : 2 ≤ h.view.shape.length) (hn : h.view.shape.getD ax 0 ≠ 0) :
    ∃ (r : Arr (Option α)) (f : List Nat → Option α), nanExtremeStep float (maxCombine id) ⊥ zero h ax = some r ∧
      r.Is ⟨h.view.shape.eraseIdx ax, f⟩ ∧
      ∀ idx, (float = false ∨ ∃ x, some x ∈ h.nd.lane ax idx) → IsNanMax (h.nd.lane ax idx) (f idx) := by
  cases float with
  | true =>
    obtain ⟨r, h1, h3⟩ := C78_sum_axis true (maxCombine (id : α → α)) ⊥ zero (by intro a b c; simp only [maxCombine_eq, max_assoc])
      (by intro a b; simp only [maxCombine_eq, max_comm]) (by intro a; rw [maxCombine_eq, max_eq_right bot_le]) h hw hi ax hax h2 hn
    refine ⟨r, _, h1, h3, ?_⟩
    rintro idx (h4 | ⟨x, hx⟩)
    · cases h4
    · have hne : numbers (h.nd.lane ax idx) ≠ [] := List.ne_nil_of_mem (mem_numbers.2 hx)
      obtain ⟨a, b⟩ := foldl_max_bot hne
      exact ⟨mem_numbers.1 a, fun y hy => b y (mem_numbers.2 hy)⟩
  | false =>
    obtain ⟨r, h1, h3⟩ := nanAxis_is (f := nanExtremeLane (maxCombine id) (⊥ : α)) (zero := some zero) hax h2 hn
    exact ⟨r, _, h1, h3, fun idx _ => nanExtremeLane_max _⟩

/-- The same for the smallest number. -/
theorem C78_min_axis_partial {α : Type} [LinearOrder α] [OrderTop α] (float : Bool) (zero : α) (h : Held (Option α)) (hw : h.view.WF)
    (hi : 0 < h.view.item) (ax : Nat) (hax : ax < h.view.shape.length) (h2 : 2 ≤ h.view.shape.length) (hn : h.view.shape.getD ax 0 ≠ 0) :
    ∃ (r : Arr (Option α)) (f : List Nat → Option α), nanExtremeStep float (minCombine id) ⊤ zero h ax = some r ∧
      r.Is ⟨h.view.shape.eraseIdx ax, f⟩ ∧
      ∀ idx, (float = false ∨ ∃ x, some x ∈ h.nd.lane ax idx) → IsNanMin (h.nd.lane ax idx) (f idx) := by
  obtain ⟨r, f, h1, h3, h4⟩ := C78_max_axis_partial (α := αᵒᵈ) float zero h hw hi ax hax h2 hn
  refine ⟨r, f, h1, h3, fun idx hx => ?_⟩
  have := h4 idx hx
  cases hf : f idx with
  | none => rw [hf] at this; exact this
  | some m => rw [hf] at this; exact this

example : nanExtremeStep true (maxCombine id) ⊥ ((0 : Int) : WithBot Int) (infHeld [2, 2] [some (1 : Int), none, some (3 : Int), some (-2 : Int)]) 0 =
    some ⟨[2], [some ((3 : Int) : WithBot Int), some ((-2 : Int) : WithBot Int)]⟩ := by decide +kernel

/-- The kernels give minus infinity for a lane of NaN, where NumPy gives NaN. -/
theorem C78_max_counterexample :
    nanExtremeStep true (maxCombine id) ⊥ ((0 : Int) : WithBot Int) (infHeld [2, 2] [none, none, some (3 : Int), none]) 1 =
      some ⟨[2], [some ⊥, some ((3 : Int) : WithBot Int)]⟩ ∧
    ¬ IsNanMax [none, (none : Option (WithBot Int))] (some ⊥) := by
  refine ⟨by decide +kernel, ?_⟩
  rintro ⟨h, -⟩
  simp at h

/-! ### Positions -/

/-- `nanargmax` of a whole array: the first position of the largest number, in row-major order, when some number is more than minus infinity;
an error when there is no number. Missing: minus infinity as the largest number. -/
theorem C78_argmax_partial {α : Type} [LinearOrder α] [OrderBot α] (h : Held (Option α)) (hw : h.view.WF) :
    ((∃ x, some x ∈ h.nd.toList ∧ x ≠ ⊥) →
      ∃ k, nanArg (fun x b => decide (b < x)) ⊥ h none = .ok (.scalar k) ∧ FirstNanMax h.nd.toList k) ∧
    ((∀ x ∈ h.nd.toList, x = none) → nanArg (fun x b => decide (b < x)) ⊥ h none = .error) := by
  have inv := nanArgAll_inv (⊥ : α) (fun _ => bot_le) h.nd.toList
  dsimp only at inv
  obtain ⟨i1, i2⟩ := inv
  have e : Rumpy.sizeOf h.view.shape ≠ 0 → nanArgAll (fun x b => decide (b < x)) ⊥ h =
      (h.nd.toList.zipIdx.foldl (betterStep fun x b => decide (b < x)) (⊥, none)).2 := by
    intro h0
    unfold nanArgAll
    rw [if_neg h0, addrs_map hw]
    rfl
  constructor
  · rintro ⟨x, hx, hxb⟩
    have h0 : Rumpy.sizeOf h.view.shape ≠ 0 := by
      intro h0
      rw [← nd_length, List.length_eq_zero_iff] at h0
      rw [h0] at hx
      cases hx
    unfold nanArg
    dsimp only
    rw [e h0]
    cases hs : (h.nd.toList.zipIdx.foldl (betterStep fun x b => decide (b < x)) (⊥, none)).2 with
    | none => exact absurd ((i1 hs).2 x hx) hxb
    | some k => exact ⟨k, rfl, _, (i2 k hs).2⟩
  · intro hall
    unfold nanArg
    dsimp only
    have : nanArgAll (fun x b => decide (b < x)) ⊥ h = none := by
      by_cases h0 : Rumpy.sizeOf h.view.shape = 0
      · unfold nanArgAll; rw [if_pos h0]
      · rw [e h0]
        cases hs : (h.nd.toList.zipIdx.foldl (betterStep fun x b => decide (b < x)) (⊥, none)).2 with
        | none => rfl
        | some k => cases hall _ (List.mem_of_getElem? (i2 k hs).2.1)
    rw [this]

/-- The same for `nanargmin`. -/
theorem C78_argmin_partial {α : Type} [LinearOrder α] [OrderTop α] (h : Held (Option α)) (hw : h.view.WF) :
    ((∃ x, some x ∈ h.nd.toList ∧ x ≠ ⊤) →
      ∃ k, nanArg (fun x b => decide (x < b)) ⊤ h none = .ok (.scalar k) ∧ FirstNanMin h.nd.toList k) ∧
    ((∀ x ∈ h.nd.toList, x = none) → nanArg (fun x b => decide (x < b)) ⊤ h none = .error) :=
  C78_argmax_partial (α := αᵒᵈ) h hw

/-- Along a valid axis that is not empty, each element is the first position of the largest number of its lane; an axis out of range is
refused. Missing: lanes of NaN. -/
theorem C78_argmax_axis_partial {α : Type} [LinearOrder α] (init : α) (h : Held (Option α)) (a : Int) (ax : Nat)
    (hax : IsAxis h.view.shape.length a ax) (h2 : 2 ≤ h.view.shape.length) (hn : h.view.shape.getD ax 0 ≠ 0) :
    ∃ (r : Arr Nat) (f : List Nat → Nat), nanArg (fun x b => decide (b < x)) init h (some a) = .ok (.array r) ∧
      r.Is ⟨h.view.shape.eraseIdx ax, f⟩ ∧ ∀ idx, (∃ x, some x ∈ h.nd.lane ax idx) → FirstNanMax (h.nd.lane ax idx) (f idx) := by
  obtain ⟨r, h1, h3⟩ := nanAxis_is (f := nanArgLane (fun (x b : α) => decide (b < x))) (zero := 0) hax.1 h2 hn
  refine ⟨r, _, ?_, h3, fun idx hx => (nanArgLane_max _).1 hx⟩
  unfold nanArg
  dsimp only
  rw [checkedAxis_iff.2 hax]
  dsimp only
  unfold nanArgStep
  rw [h1]

/-- The same for `nanargmin`. -/
theorem C78_argmin_axis_partial {α : Type} [LinearOrder α] (init : α) (h : Held (Option α)) (a : Int) (ax : Nat)
    (hax : IsAxis h.view.shape.length a ax) (h2 : 2 ≤ h.view.shape.length) (hn : h.view.shape.getD ax 0 ≠ 0) :
    ∃ (r : Arr Nat) (f : List Nat → Nat), nanArg (fun x b => decide (x < b)) init h (some a) = .ok (.array r) ∧
      r.Is ⟨h.view.shape.eraseIdx ax, f⟩ ∧ ∀ idx, (∃ x, some x ∈ h.nd.lane ax idx) → FirstNanMin (h.nd.lane ax idx) (f idx) :=
  C78_argmax_axis_partial (α := αᵒᵈ) init h a ax hax h2 hn

/-- An axis that the array does not have is refused. -/
theorem C78_arg_axis_refused {α : Type} (better : α → α → Bool) (init : α) (h : Held (Option α)) (a : Int)
    (ha : ∀ k, ¬ IsAxis h.view.shape.length a k) : nanArg better init h (some a) = .error := by
  unfold nanArg
  dsimp only
  cases hc : checkedAxis h.view.shape.length a with
  | none => rfl
  | some k => exact absurd (checkedAxis_iff.1 hc) (ha k)

example : nanArg (fun (x b : ℚ) => decide (b < x)) 0 (nanHeld [2, 3] [none, some 5, some 5, some 1, none, some 2]) (some (-1)) =
    .ok (.array ⟨[2], [1, 2]⟩) ∧
    nanArg (fun (x b : WithBot Int) => decide (b < x)) ⊥ (infHeld [2, 2] [none, some (5 : Int), some (5 : Int), none]) none = .ok (.scalar 1) := by
  decide +kernel

/-- A lane of NaN gives position 0, where NumPy raises; an array whose numbers are all minus infinity is refused as if it were all NaN; and an
empty axis gives position 0. -/
theorem C78_arg_counterexample :
    nanArg (fun (x b : ℚ) => decide (b < x)) 0 (nanHeld [2, 2] [none, none, some 1, none]) (some 1) = .ok (.array ⟨[2], [0, 0]⟩) ∧
    nanArg (fun (x b : WithBot Int) => decide (b < x)) ⊥ (infHeld [2] [none, some ⊥]) none = .error ∧
    FirstNanMax [none, some (⊥ : WithBot Int)] 1 ∧
    nanArg (fun (x b : ℚ) => decide (b < x)) 0 (nanHeld [2, 0] []) (some 1) = .ok (.array ⟨[2], [0, 0]⟩) := by
  refine ⟨by decide +kernel, by decide +kernel, ⟨⊥, rfl, ?_, ?_⟩, by decide +kernel⟩
  · intro x hx
    have : x = ⊥ := by simpa using hx
    exact this.le
  · intro j hj x hx
    have : j = 0 := by omega
    subst this
    cases hx

end Props
