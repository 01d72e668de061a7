import Verif.Model.CompressArg
import Verif.Props.Truth

/-!
# C112: `compress` keeps the positions whose condition is true, for conditions of every kind
-/

namespace Props
open Spec Rumpy

/-- `ks` lists the positions below `n` with the property, in order. -/
def Chosen (n : Nat) (p : Nat → Prop) (ks : List Nat) : Prop := ks.Pairwise (· < ·) ∧ ∀ k, k ∈ ks ↔ k < n ∧ p k

/-- The elements of an array that have a property, by their place in row-major order. -/
def AtPlace (g : Held Elem) (p : Elem → Prop) (k : Nat) : Prop := ∃ i, InShape g.view.shape i ∧ rank g.view.shape i = k ∧ p (g.nd.get i)

/-- What `compress` answers if the positions `ks` (without an axis) or `ks ax` of the axis are chosen. -/
def Keeps {α : Type} (h : Held α) (p : Nat → Prop) (result : Option Nat → Outcome (Arr α)) : Prop :=
  (∃ ks xs, Chosen (size h.view.shape) p ks ∧ result none = .ok ⟨[xs.length], xs⟩ ∧ xs.map some = ks.map fun k => h.nd.toList[k]?) ∧
    (∀ ax, ax < h.view.shape.length → ∃ ks r, Chosen (h.view.shape.getD ax 0) p ks ∧ result (some ax) = .ok r ∧ r.Is (h.nd.takeAxis ax ks)) ∧
    ∀ ax, h.view.shape.length ≤ ax → result (some ax) = .error

theorem chosen_truePositions (c : List Bool) (n : Nat) : Chosen n (fun k => c[k]? = some true) (truePositions c n) := by
  unfold truePositions
  refine ⟨List.pairwise_lt_range.sublist List.filter_sublist, fun k => ?_⟩
  rw [List.mem_filter, List.mem_range]
  refine and_congr_right fun _ => ?_
  rw [List.getD_eq_getElem?_getD]
  cases h : c[k]? <;> simp [h]

theorem chosen_congr {n : Nat} {p q : Nat → Prop} {ks : List Nat} (h : ∀ k, p k ↔ q k) (hc : Chosen n p ks) : Chosen n q ks :=
  ⟨hc.1, fun k => (hc.2 k).trans (and_congr_right fun _ => h k)⟩

theorem compress_reads {α : Type} (zero : α) {cond : Option (List Bool)} {c : List Bool} (hc : cond = some c) (h : Held α) (hw : h.view.WF)
    {p : Nat → Prop} (hp : ∀ k, c[k]? = some true ↔ p k) : Keeps h p (compressOf zero cond h) := by
  subst hc
  refine ⟨?_, fun ax hax => ?_, fun ax hax => ?_⟩
  · obtain ⟨xs, e1, e2⟩ := C14_compress_flat zero h.mem c h.view hw
    exact ⟨_, xs, chosen_congr hp (chosen_truePositions c _), congrArg Outcome.ok e1, e2⟩
  · obtain ⟨r, e1, e2⟩ := C14_compress_axis zero c h.nd ax hax
    refine ⟨_, r, chosen_congr hp (chosen_truePositions c _), ?_, e2⟩
    simp only [compressOf, e1]
  · have e := C14_compress_axis_error zero c h.nd ax (by show ¬ ax < h.view.shape.length; omega)
    simp only [compressOf, e]

theorem places {g : Held Elem} (hw : g.view.WF) (t : Elem → Bool) {p : Elem → Prop}
    (ht : ∀ i, InShape g.view.shape i → (t (g.nd.get i) = true ↔ p (g.nd.get i))) (k : Nat) :
    (g.view.addrs.map fun o => t (g.mem o))[k]? = some true ↔ AtPlace g p k := by
  rw [addrs_eq hw, List.map_map, List.getElem?_map]
  constructor
  · intro h
    obtain ⟨i, h1, h2⟩ := Option.map_eq_some_iff.1 h
    have hi : InShape g.view.shape i := mem_indices.1 (List.mem_of_getElem? h1)
    refine ⟨i, hi, ?_, (ht i hi).1 h2⟩
    have h3 : ((indices g.view.shape).map (rank g.view.shape))[k]? = some (rank g.view.shape i) := by rw [List.getElem?_map, h1]; rfl
    rw [map_rank_indices, List.getElem?_range (by
      by_contra hge
      rw [List.getElem?_eq_none (by rw [length_indices]; omega)] at h1
      cases h1)] at h3
    exact (Option.some.inj h3).symm
  · rintro ⟨i, hi, rfl, hp⟩
    rw [indices_getElem?_rank hi]
    exact congrArg some ((ht i hi).2 hp)

/-- C112: the function keeps the positions at which an array of numbers, of any layout, is not zero. -/
theorem C112_function {α : Type} (zero : α) {d : DType} (hd : d.Numeric) {g : Held Elem} (hwg : g.view.WF) (ht : Typed d g) (h : Held α)
    (hw : h.view.WF) : Keeps h (AtPlace g Elem.Truthy) (compressOf zero (condFn (.array d g)) h) :=
  compress_reads zero rfl h hw (places hwg (truthElem d) fun i hi => truthElem_numeric hd (ht i hi))

/-- C112: the function keeps the positions of the dates and durations that are neither zero nor NaT. -/
theorem C112_function_dates {α : Type} (zero : α) {d : DType} (hd : (∃ u, d = .datetime u) ∨ ∃ u, d = .timedelta u) {g : Held Elem}
    (hwg : g.view.WF) (ht : Typed d g) (h : Held α) (hw : h.view.WF) :
    Keeps h (AtPlace g SetTime) (compressOf zero (condFn (.array d g)) h) :=
  compress_reads zero rfl h hw (places hwg (truthElem d) fun i hi => by
    have hx := ht i hi
    generalize g.nd.get i = x at hx
    unfold SetTime
    rcases hd with ⟨u, rfl⟩ | ⟨u, rfl⟩ <;> cases x with
    | int n => simp [truthElem, NaT]
    | _ => exact hx.elim)

/-- C112 (partial): the method does so for real dtypes. Missing: complex numbers, of which it keeps none. -/
theorem C112_method_partial {α : Type} (zero : α) {d : DType} (hd : d.Real) {g : Held Elem} (hwg : g.view.WF) (ht : Typed d g) (h : Held α)
    (hw : h.view.WF) : Keeps h (AtPlace g Elem.Truthy) (compressOf zero (condMethod (.array d g)) h) :=
  compress_reads zero rfl h hw (places hwg floatTruth fun i hi => floatTruth_real hd (ht i hi))

/-- C112: a list of booleans keeps the positions at which it is true, in the function and in the method. -/
theorem C112_lists {α : Type} (zero : α) (c : List Bool) (h : Held α) (hw : h.view.WF) :
    Keeps h (fun k => c[k]? = some true) (compressOf zero (condFn (.bools true c)) h) ∧
      Keeps h (fun k => c[k]? = some true) (compressOf zero (condMethod (.bools true c)) h) :=
  ⟨compress_reads zero rfl h hw fun _ => Iff.rfl, compress_reads zero rfl h hw fun _ => Iff.rfl⟩

/-- C112: the method keeps no position for any complex condition. -/
theorem C112_complex_counterexample {α : Type} (zero : α) {d : DType} (hd : d = .c64 ∨ d = .c128) {g : Held Elem} (hwg : g.view.WF)
    (ht : Typed d g) (h : Held α) (hw : h.view.WF) : Keeps h (fun _ => False) (compressOf zero (condMethod (.array d g)) h) := by
  refine compress_reads zero rfl h hw fun k => ?_
  rw [places (p := fun _ => False) hwg floatTruth fun i hi => ?_]
  · exact ⟨fun ⟨_, _, _, h⟩ => h, False.elim⟩
  · have hx := ht i hi
    generalize g.nd.get i = x at hx
    rcases hd with rfl | rfl <;> cases x with
    | cpx u v => simp [floatTruth, readF64, fltEq]
    | int n => obtain ⟨lo, hi, h0, -⟩ := hx; cases h0
    | _ => exact hx.elim

/-! ### The hypotheses are met -/

example : Typed .f64 (stored .f64 [3] [.flt (.num 0), .flt .nan, .flt .negInf]) ∧
    compressOf 0 (condFn (.array .f64 (stored .f64 [3] [.flt (.num 0), .flt .nan, .flt .negInf]))) (Held.of ⟨[3, 2], [1, 2, 3, 4, 5, 6]⟩ 8 0) (some 0) =
      .ok ⟨[2, 2], [3, 4, 5, 6]⟩ := by
  refine ⟨fun i hi => ?_, by decide +kernel⟩
  have hi' : InShape [3] i := hi
  rcases mem_indices.2 hi' with _ | ⟨_, _ | ⟨_, _ | ⟨_, h⟩⟩⟩
  · exact Props.isFloat_zero (p := 53) (lo := -1074) (hi := 971) (by norm_num)
  · exact trivial
  · exact trivial
  · cases h

example : compressOf 0 (condMethod (.array .i32 (stored .i32 [3] [.int 0, .int (-4), .int 0]))) (Held.of ⟨[3], [7, 8, 9]⟩ 8 0) none =
    .ok ⟨[1], [8]⟩ := by decide +kernel

example : compressOf 0 (condFn (.array (.timedelta .s) (stored (.timedelta .s) [3] [.int 0, .int (-4), .int (-2 ^ 63)])))
    (Held.of ⟨[3], [7, 8, 9]⟩ 8 0) none = .ok ⟨[1], [8]⟩ := by decide +kernel

/-! ### Where the answers differ from NumPy's -/

example : compressOf 0 (condFn (.array .c128 (stored .c128 [1] [.cpx (.num 1) (.num 0)]))) (Held.of ⟨[1], [7]⟩ 8 0) none = .ok ⟨[1], [7]⟩ ∧
    compressOf 0 (condMethod (.array .c128 (stored .c128 [1] [.cpx (.num 1) (.num 0)]))) (Held.of ⟨[1], [7]⟩ 8 0) none = .ok ⟨[0], []⟩ := by
  decide +kernel

/-- C112: a true entry beyond the length is ignored, where NumPy raises IndexError; a condition with two axes is read in row-major order, where
NumPy raises ValueError; a tuple is no condition for the method, and a list of integers is none for either. -/
theorem C112_counterexample :
    compressOf 0 (condFn (.bools true [true, false, true])) (Held.of ⟨[2], [7, 8]⟩ 8 0) none = .ok ⟨[1], [7]⟩ ∧
      compressOf 0 (condFn (.array .bool (stored .bool [1, 2] [.bool false, .bool true]))) (Held.of ⟨[2], [7, 8]⟩ 8 0) none = .ok ⟨[1], [8]⟩ ∧
      compressOf 0 (condFn (.bools false [true, false])) (Held.of ⟨[2], [7, 8]⟩ 8 0) none = .ok ⟨[1], [7]⟩ ∧
      compressOf 0 (condMethod (.bools false [true, false])) (Held.of ⟨[2], [7, 8]⟩ 8 0) none = .error ∧
      compressOf 0 (condFn .other) (Held.of ⟨[2], [7, 8]⟩ 8 0) none = .error := by decide +kernel

end Props
