import Verif.Spec.Truth
import Verif.Model.Truth
import Verif.Props.Choose
import Verif.Props.Select
import Verif.Props.Compare
import Verif.Props.Arith

/-!
# C107: which elements are true is answered alike by all functions, for every dtype
-/

namespace Props

open Spec Rumpy

/-! ### Lists of indices -/

theorem lists_filter {α : Type} (a : Nd α) {p : α → Prop} {t : α → Bool} (h : ∀ i, InShape a.shape i → (t (a.get i) = true ↔ p (a.get i))) :
    Lists a p (a.trueAt t) := by
  constructor
  · intro i
    unfold Nd.trueAt
    rw [List.mem_filter, mem_indices]
    exact ⟨fun ⟨h1, h2⟩ => ⟨h1, (h i h1).mp h2⟩, fun ⟨h1, h2⟩ => ⟨h1, (h i h1).mpr h2⟩⟩
  · have h1 : ((indices a.shape).map (rank a.shape)).Pairwise (· < ·) := by
      rw [map_rank_indices]
      exact List.pairwise_lt_range
    exact (List.pairwise_map.mp h1).sublist List.filter_sublist

/-- The list is determined. -/
theorem lists_unique {α : Type} {a : Nd α} {p : α → Prop} {ks ls : List (List Nat)} (h : Lists a p ks) (g : Lists a p ls) : ks = ls := by
  have irr : ∀ i j : List Nat, rank a.shape i < rank a.shape j → rank a.shape j < rank a.shape i → False := fun i j h1 h2 => by omega
  refine List.Perm.eq_of_pairwise (fun i j _ _ h1 h2 => (irr i j h1 h2).elim) h.order g.order ?_
  have nod : ∀ l : List (List Nat), l.Pairwise (fun i j => rank a.shape i < rank a.shape j) → l.Nodup := fun l hl =>
    hl.imp fun {i j} h1 h2 => by rw [h2] at h1; omega
  exact (List.perm_ext_iff_of_nodup (nod _ h.order) (nod _ g.order)).mpr fun i => by rw [h.which, g.which]

theorem flat_positions (t : Elem → Bool) (h : Held Elem) :
    ((List.range (size h.view.shape)).filter fun k => ((h.view.denote h.mem).toList[k]?).any t) =
      (h.nd.trueAt t).map (rank h.view.shape) := by
  rw [← map_rank_indices, List.filter_map]
  unfold Nd.trueAt
  congr 1
  apply List.filter_congr
  intro i hi
  have hi' : InShape h.view.shape i := mem_indices.mp hi
  have : (h.view.denote h.mem).toList[rank h.view.shape i]? = some (h.nd.get i) := by
    unfold Nd.toList
    rw [List.getElem?_map]
    have := indices_getElem?_rank hi'
    rw [show (h.view.denote h.mem).shape = h.view.shape from rfl, this]
    rfl
  simp [this]

/-- What the functions say, if `t` tells which elements have the property. -/
theorem truth_lists (d : DType) {p : Elem → Prop} (h : Held Elem) (hw : h.view.WF)
    (ht : ∀ i, InShape h.view.shape i → (truthElem d (h.nd.get i) = true ↔ p (h.nd.get i))) :
    ∃ ks, Lists h.nd p ks ∧
      countNonzeroFn d h = ks.length ∧
      flatnonzeroFn d h = ⟨[ks.length], ks.map (rank h.view.shape)⟩ ∧
      (h.view.shape ≠ [] → (argwhereFn d h).Is ⟨[ks.length, h.view.shape.length], fun rj => (ks.getD (rj.getD 0 0) []).getD (rj.getD 1 0) 0⟩) ∧
      (allFn d h = true ↔ ∀ i, InShape h.view.shape i → p (h.nd.get i)) ∧
      (anyFn d h = true ↔ ∃ i, InShape h.view.shape i ∧ p (h.nd.get i)) ∧
      Tells (logicalNotFn d h) h.view.shape fun i => ¬ p (h.nd.get i) := by
  obtain ⟨h1, h2, h3⟩ := C69_all_any (truthElem d) h hw
  refine ⟨h.nd.trueAt (truthElem d), lists_filter h.nd ht, h3, ?_, ?_, ?_, ?_, ?_⟩
  · unfold flatnonzeroFn
    rw [C14_flatnonzero _ _ _ hw]
    dsimp only
    rw [flat_positions, List.length_map]
  · exact fun hs => C14_argwhere (truthElem d) h.nd hs
  · rw [show allFn d h = allElems (truthElem d) h from rfl, h1]
    exact ⟨fun g i hi => (ht i hi).mp (g i hi), fun g i hi => (ht i hi).mpr (g i hi)⟩
  · rw [show anyFn d h = anyElems (truthElem d) h from rfl, h2]
    exact ⟨fun ⟨i, hi, g⟩ => ⟨i, hi, (ht i hi).mp g⟩, fun ⟨i, hi, g⟩ => ⟨i, hi, (ht i hi).mpr g⟩⟩
  · obtain ⟨e1, e2, e3⟩ := C69_logical_not (truthElem d) h hw
    refine ⟨e1, e2, fun i hi => ?_⟩
    obtain ⟨t, g1, g2⟩ := e3 i hi
    exact ⟨t, g1, g2.trans (not_congr (ht i hi))⟩

theorem truthElem_numeric {d : DType} (hd : d.Numeric) {x : Elem} (hx : x.OfType d) : truthElem d x = true ↔ x.Truthy := by
  rw [← isTruthy_iff hd hx]
  cases d <;> first | exact hd.elim | rfl

/-- For every number dtype and every layout, `count_nonzero`, `flatnonzero`, `argwhere`, `all`, `any` and `logical_not` agree on
which elements are true: those that are not zero. -/
theorem C107_numbers {d : DType} (hd : d.Numeric) (h : Held Elem) (hw : h.view.WF) (ht : Typed d h) :
    ∃ ks, Lists h.nd Elem.Truthy ks ∧
      countNonzeroFn d h = ks.length ∧
      flatnonzeroFn d h = ⟨[ks.length], ks.map (rank h.view.shape)⟩ ∧
      (h.view.shape ≠ [] → (argwhereFn d h).Is ⟨[ks.length, h.view.shape.length], fun rj => (ks.getD (rj.getD 0 0) []).getD (rj.getD 1 0) 0⟩) ∧
      (allFn d h = true ↔ ∀ i, InShape h.view.shape i → (h.nd.get i).Truthy) ∧
      (anyFn d h = true ↔ ∃ i, InShape h.view.shape i ∧ (h.nd.get i).Truthy) ∧
      Tells (logicalNotFn d h) h.view.shape fun i => ¬ (h.nd.get i).Truthy :=
  truth_lists d h hw fun i hi => truthElem_numeric hd (ht i hi)

/-- A date or a duration that is neither zero nor NaT. -/
def SetTime (x : Elem) : Prop := x ≠ .int 0 ∧ x ≠ .int (-2 ^ 63)

/-- For dates and durations the same functions agree that zero and NaT are false. -/
theorem C107_dates {d : DType} (hd : (∃ u, d = .datetime u) ∨ ∃ u, d = .timedelta u) (h : Held Elem) (hw : h.view.WF) (ht : Typed d h) :
    ∃ ks, Lists h.nd SetTime ks ∧
      countNonzeroFn d h = ks.length ∧
      flatnonzeroFn d h = ⟨[ks.length], ks.map (rank h.view.shape)⟩ ∧
      (h.view.shape ≠ [] → (argwhereFn d h).Is ⟨[ks.length, h.view.shape.length], fun rj => (ks.getD (rj.getD 0 0) []).getD (rj.getD 1 0) 0⟩) ∧
      (allFn d h = true ↔ ∀ i, InShape h.view.shape i → SetTime (h.nd.get i)) ∧
      (anyFn d h = true ↔ ∃ i, InShape h.view.shape i ∧ SetTime (h.nd.get i)) ∧
      Tells (logicalNotFn d h) h.view.shape fun i => ¬ SetTime (h.nd.get i) := by
  refine truth_lists d h hw fun i hi => ?_
  have hx := ht i hi
  generalize h.nd.get i = x at hx
  unfold SetTime
  rcases hd with ⟨u, rfl⟩ | ⟨u, rfl⟩ <;> cases x with
  | int n => simp [truthElem, NaT]
  | _ => exact hx.elim

/-! ### `nonzero` -/

theorem floatTruth_real {d : DType} (hd : d.Real) {x : Elem} (hx : x.OfType d) : floatTruth x = true ↔ x.Truthy := by
  unfold floatTruth Elem.Truthy
  cases x with
  | bool b => cases b <;> simp [readF64, Elem.number, fltEq]
  | int n =>
    have := intToF64_zero_iff n
    simp [readF64, Elem.number, fltEq, this]
  | flt u => cases u <;> simp [readF64, Elem.number, fltEq]
  | cpx u v => cases d <;> first | exact hd.elim | exact hx.elim
  | text s => cases d <;> first | exact hd.elim | exact hx.elim

/-- For real dtypes `nonzero` lists the same elements as the others: for each axis the coordinates of the true elements.  Missing:
complex numbers, dates and durations, see the counterexamples. -/
theorem C107_nonzero_partial {d : DType} (hd : d.Real) (h : Held Elem) (ht : Typed d h) :
    ∃ ks, Lists h.nd Elem.Truthy ks ∧ nonzeroFn h = (List.range h.view.shape.length).map fun c => ks.map fun i => i.getD c 0 :=
  ⟨h.nd.trueAt floatTruth, lists_filter h.nd fun i hi => floatTruth_real hd (ht i hi), C14_nonzero floatTruth h.nd⟩

/-- `nonzero` finds nothing in any complex array. -/
theorem C107_complex_counterexample {d : DType} (hd : d = .c64 ∨ d = .c128) (h : Held Elem) (ht : Typed d h) :
    nonzeroFn h = List.replicate h.view.shape.length [] := by
  have he : h.nd.trueAt floatTruth = [] := by
    refine List.filter_eq_nil_iff.mpr fun i hi => ?_
    have hx := ht i (mem_indices.mp hi)
    generalize h.nd.get i = x at hx
    rcases hd with rfl | rfl <;> cases x with
    | cpx u v => simp [floatTruth, readF64, fltEq]
    | int n =>
      obtain ⟨_, _, hr, _⟩ := hx
      cases hr
    | _ => exact hx.elim
  unfold nonzeroFn
  rw [C14_nonzero, he]
  apply List.ext_getElem
  · simp [Held.nd, View.denote]
  · intro n h1 h2
    simp

/-- Whereas `count_nonzero` of `[1j, 0]` is 1. -/
example : countNonzeroFn .c128 (stored .c128 [2] [.cpx (.num 0) (.num 1), .cpx (.num 0) (.num 0)]) = 1 ∧
    flatnonzeroFn .c128 (stored .c128 [2] [.cpx (.num 0) (.num 1), .cpx (.num 0) (.num 0)]) = ⟨[1], [0]⟩ ∧
    nonzeroFn (stored .c128 [2] [.cpx (.num 0) (.num 1), .cpx (.num 0) (.num 0)]) = [[]] := by
  decide +kernel

/-- NaT is false for `count_nonzero`, `argwhere` and `all`, but true for `nonzero` and for `all` along an axis. -/
theorem C107_nat_counterexample :
    countNonzeroFn (.datetime .s) (stored (.datetime .s) [1] [.int (-2 ^ 63)]) = 0 ∧
    (argwhereFn (.datetime .s) (stored (.datetime .s) [1] [.int (-2 ^ 63)])).shape = [0, 1] ∧
    allFn (.datetime .s) (stored (.datetime .s) [1] [.int (-2 ^ 63)]) = false ∧
    nonzeroFn (stored (.datetime .s) [1] [.int (-2 ^ 63)]) = [[0]] ∧
    allAxisFn (.datetime .s) (stored (.datetime .s) [1] [.int (-2 ^ 63)]) 0 = ⟨[1], [true]⟩ := by
  decide +kernel

/-! ### Along an axis -/

theorem axisTruth_numeric {d : DType} (hd : d.Numeric) {x : Elem} (hx : x.OfType d) : axisTruth d x = true ↔ x.Truthy := by
  unfold axisTruth
  split
  · exact isTruthy_iff hd hx
  · next hf =>
    refine floatTruth_real (d := d) ?_ hx
    cases d <;> first | trivial | exact hd.elim | exact absurd rfl hf

/-- Along an axis of an array of two or more axes, `all` and `any` say for each lane whether all or some of its elements are
true, for every number dtype; for int8 only if the axis is not empty (`C69_axis_partial` has the 1-d arrays). -/
theorem C107_axis_partial {d : DType} (hd : d.Numeric) (h : Held Elem) (hw : h.view.WF) (ht : Typed d h) (axis : Nat)
    (hax : axis < h.view.shape.length) (h2 : 2 ≤ h.view.shape.length) (hn : d ≠ .i8 ∨ h.view.shape.getD axis 0 ≠ 0) :
    Tells (allAxisFn d h axis) (h.view.shape.eraseIdx axis) (LaneAll Elem.Truthy h.nd axis) ∧
    Tells (anyAxisFn d h axis) (h.view.shape.eraseIdx axis) (LaneAny Elem.Truthy h.nd axis) := by
  have hn' : typedTruth d = true ∨ h.view.shape.getD axis 0 ≠ 0 := by
    rcases hn with hn | hn
    · left
      cases d <;> first | rfl | exact hd.elim | exact absurd rfl hn
    · exact Or.inr hn
  obtain ⟨e1, e2⟩ := (C69_axis_partial (typedTruth d) (axisTruth d) h hw axis hax hn').1 h2
  have key : ∀ i, InShape (h.view.shape.eraseIdx axis) i → ∀ j, j < h.view.shape.getD axis 0 →
      (axisTruth d (h.nd.get (i.insertIdx axis j)) = true ↔ (h.nd.get (i.insertIdx axis j)).Truthy) := fun i hi j hj =>
    axisTruth_numeric hd (ht _ (inShape_insertIdx hax hi hj))
  constructor
  · refine ⟨e1.1, e1.2.1, fun i hi => ?_⟩
    obtain ⟨t, g1, g2⟩ := e1.2.2 i hi
    refine ⟨t, g1, g2.trans ?_⟩
    exact ⟨fun g j hj => (key i hi j hj).mp (g j hj), fun g j hj => (key i hi j hj).mpr (g j hj)⟩
  · refine ⟨e2.1, e2.2.1, fun i hi => ?_⟩
    obtain ⟨t, g1, g2⟩ := e2.2.2 i hi
    refine ⟨t, g1, g2.trans ?_⟩
    exact ⟨fun ⟨j, hj, g⟩ => ⟨j, hj, (key i hi j hj).mp g⟩, fun ⟨j, hj, g⟩ => ⟨j, hj, (key i hi j hj).mpr g⟩⟩

/-! ### Examples -/

example : Typed .i8 (stored .i8 [2, 2] [.int 0, .int 3, .int (-1), .int 0]) ∧ (stored .i8 [2, 2] [.int 0, .int 3, .int (-1), .int 0]).view.WF := by
  refine ⟨fun i hi => ?_, View.WF.fresh _ _⟩
  have : i ∈ indices [2, 2] := mem_indices.mpr hi
  fin_cases this <;> exact ⟨_, _, rfl, by decide +kernel, by decide +kernel⟩

example : ∃ ks, Lists (stored .i8 [2, 2] [.int 0, .int 3, .int (-1), .int 0]).nd Elem.Truthy ks ∧ ks = [[0, 1], [1, 0]] ∧
    countNonzeroFn .i8 (stored .i8 [2, 2] [.int 0, .int 3, .int (-1), .int 0]) = ks.length ∧
    nonzeroFn (stored .i8 [2, 2] [.int 0, .int 3, .int (-1), .int 0]) = [[0, 1], [1, 0]] := by
  refine ⟨_, lists_filter _ (t := isTruthy) fun i hi => ?_, ?_, ?_, ?_⟩
  · have : i ∈ indices [2, 2] := mem_indices.mpr hi
    fin_cases this <;> unfold Elem.Truthy <;> decide +kernel
  · decide +kernel
  · decide +kernel
  · decide +kernel

example : allAxisFn .f64 (stored .f64 [2, 2] [.flt .nan, .flt (.num 1), .flt (.num 0), .flt .posInf]) 1 = ⟨[2], [true, false]⟩ ∧
    anyAxisFn .c64 (stored .c64 [1, 2] [.cpx (.num 0) (.num 1), .cpx (.num 0) (.num 0)]) 0 = ⟨[2], [true, false]⟩ := by
  decide +kernel

end Props
