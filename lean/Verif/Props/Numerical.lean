import Mathlib.Tactic.FieldSimp
import Mathlib.Tactic.Ring
import Mathlib.Tactic.LinearCombination
import Mathlib.Algebra.Order.Field.Basic
import Verif.Spec.Numerical
import Verif.Model.Numerical
import Verif.Lemmas.Grid
import Verif.Props.Convolve
/-!
# C64: gradient, trapezoid and interp

Arithmetic is exact, in a field.
-/

namespace Props
open Spec Rumpy

/-! ### gradient -/

theorem fresh_byte {s : List Nat} {axis : Nat} (hax : axis < s.length) {idx : List Nat}
    (hi : InShape (s.eraseIdx axis) idx) {j : Nat} (hj : j < s.getD axis 0) :
    byteOffset idx ((cStrides s 8).eraseIdx axis) + j * (cStrides s 8).getD axis 0 = (rank s (idx.insertIdx axis j) : Int) * 8 := by
  have h1 := lane_addr (View.WF.fresh s 8) hax hi j
  have h2 := cFlag_addr (View.WF.fresh s 8) rfl (inShape_insertIdx hax hi hj)
  rw [h1] at h2
  simp only [View.fresh] at h2
  rw [Int.mul_comm] at h2
  simpa using h2

theorem cStrides_getD_dvd (s : List Nat) (axis : Nat) : (8 : Int) ∣ (cStrides s 8).getD axis 0 := by
  by_cases h : axis < (cStrides s 8).length
  · rw [List.getD_eq_getElem _ _ h]
    exact cStrides_dvd 8 s _ (List.getElem_mem h)
  · rw [List.getD_eq_default _ _ (by omega)]
    exact dvd_zero _

theorem laneRead_eq {f : Held K} (hw : f.view.WF) {typed : Bool} {axis : Nat} (hax : axis < f.view.shape.length)
    (ht : typed = true → (f.view.item : Int) ∣ f.view.strides.getD axis 0) {idx : List Nat}
    (hi : InShape (f.view.shape.eraseIdx axis) idx) (i : Nat) :
    laneRead typed f axis (byteOffset idx (f.view.strides.eraseIdx axis)) i = f.nd.get (idx.insertIdx axis i) := by
  show _ = f.mem (f.view.addr (idx.insertIdx axis i))
  rw [lane_addr hw hax hi, laneRead]
  split
  · rename_i h
    rw [Int.mul_assoc, Int.tdiv_mul_cancel (ht h), Int.mul_comm (i : Int)]
  · rw [Int.mul_comm (i : Int)]

theorem gradientLanes_eq [Field K] {f : Held K} (hw : f.view.WF) {typed : Bool} {axis : Nat} (hax : axis < f.view.shape.length)
    (ht : typed = true → (f.view.item : Int) ∣ f.view.strides.getD axis 0) (hn : 2 ≤ f.view.shape.getD axis 0)
    (hs : f.view.strides.eraseIdx axis = (cStrides f.view.shape 8).eraseIdx axis) (lane : Nat → (Nat → K) → List K)
    (hlane : ∀ y, (lane (f.view.shape.getD axis 0) y).length = f.view.shape.getD axis 0) :
    gradientLanes typed lane f axis = some ⟨f.view.shape, (indices f.view.shape).map fun idx =>
      (lane (f.view.shape.getD axis 0) fun j => f.nd.get (idx.set axis j)).getD (idx.getD axis 0) 0⟩ := by
  unfold gradientLanes
  dsimp only
  rw [if_neg (by omega), Props.C01_axis_iter_row_major _ _ _ _ hw.len]
  have hst : ∀ idx ∈ indices (f.view.shape.eraseIdx axis),
      ((lane (f.view.shape.getD axis 0) (laneRead typed f axis (0 + byteOffset idx (f.view.strides.eraseIdx axis)))).zipIdx.map
        fun vi => ((if typed then 0 + byteOffset idx (f.view.strides.eraseIdx axis) + (vi.2 : Int) * (((cStrides f.view.shape 8).getD axis 0).tdiv 8 * 8)
          else (0 + byteOffset idx (f.view.strides.eraseIdx axis) + (vi.2 : Int) * (cStrides f.view.shape 8).getD axis 0).tdiv 8 * 8 : Int), vi.1)) =
      (lane (f.view.shape.getD axis 0) fun j => f.nd.get (idx.insertIdx axis j)).zipIdx.map fun vi =>
        ((rank f.view.shape (idx.insertIdx axis vi.2) : Int) * 8, vi.1) := by
    intro idx hidx
    have hin := mem_indices.1 hidx
    rw [Int.zero_add]
    have hl : laneRead typed f axis (byteOffset idx (f.view.strides.eraseIdx axis)) = fun j => f.nd.get (idx.insertIdx axis j) :=
      funext fun j => laneRead_eq hw hax ht hin j
    rw [hl]
    apply List.map_congr_left
    intro vi hvi
    have hj : vi.2 < f.view.shape.getD axis 0 := by
      have := List.snd_lt_of_mem_zipIdx hvi
      rw [hlane] at this
      omega
    have hb := fresh_byte hax hin hj
    rw [hs, Int.tdiv_mul_cancel (cStrides_getD_dvd _ _), hb, Int.tdiv_mul_cancel (Dvd.intro_left _ rfl)]
    simp
  rw [List.flatMap_map, List.flatMap_congr hst, commitStores]
  have hmem : ∀ w ∈ (indices (f.view.shape.eraseIdx axis)).flatMap (fun idx =>
      (lane (f.view.shape.getD axis 0) fun j => f.nd.get (idx.insertIdx axis j)).zipIdx.map fun vi =>
        ((rank f.view.shape (idx.insertIdx axis vi.2) : Int) * 8, vi.1)),
      ∃ idx, InShape f.view.shape idx ∧ w = ((rank f.view.shape idx : Int) * 8,
        (lane (f.view.shape.getD axis 0) fun j => f.nd.get (idx.set axis j)).getD (idx.getD axis 0) 0) := by
    intro w hm
    obtain ⟨idx, hidx, hm⟩ := List.mem_flatMap.1 hm
    obtain ⟨vi, hvi, rfl⟩ := List.mem_map.1 hm
    have hin := mem_indices.1 hidx
    have hj : vi.2 < f.view.shape.getD axis 0 := by
      have := List.snd_lt_of_mem_zipIdx hvi
      rw [hlane] at this
      omega
    have hle : axis ≤ idx.length := by rw [lane_length hax hin]; omega
    refine ⟨idx.insertIdx axis vi.2, inShape_insertIdx hax hin hj, ?_⟩
    simp only [set_insertIdx_self _ _ _ _ hle, getD_insertIdx_self _ _ _ hle]
    have h3 := List.mem_zipIdx_iff_getElem?.1 hvi
    rw [List.getD_eq_getElem?_getD, h3]
    rfl
  rw [if_pos, Option.map_some]
  · refine congrArg (fun d => some (Arr.mk f.view.shape d)) ?_
    apply writes_cover _ (by rw [List.length_replicate, sizeOf_eq])
    · intro w hm
      obtain ⟨w', hw', rfl⟩ := List.mem_map.1 hm
      obtain ⟨idx, hi, rfl⟩ := hmem w' hw'
      refine ⟨idx, hi, ?_⟩
      simp
    · intro idx hi
      obtain ⟨h1, h2, h3⟩ := lane_of_index hax hi
      have hl := hi.length_eq
      refine List.mem_map.2 ⟨((rank f.view.shape idx : Int) * 8,
        (lane (f.view.shape.getD axis 0) fun j => f.nd.get (idx.set axis j)).getD (idx.getD axis 0) 0),
        List.mem_flatMap.2 ⟨idx.eraseIdx axis, mem_indices.2 h1,
        List.mem_map.2 ⟨((lane (f.view.shape.getD axis 0) fun j => f.nd.get (idx.set axis j)).getD (idx.getD axis 0) 0,
          idx.getD axis 0), ?_, ?_⟩⟩, ?_⟩
      · rw [List.mem_zipIdx_iff_getElem?]
        simp only [insertIdx_eraseIdx_set _ (show axis < idx.length by omega)]
        have hb : idx.getD axis 0 < (lane (f.view.shape.getD axis 0) fun j => f.nd.get (idx.set axis j)).length := by
          rw [hlane]; exact h2
        rw [List.getElem?_eq_getElem hb]
        exact congrArg some (List.getD_eq_getElem _ _ hb).symm
      · dsimp only
        rw [h3]
      · simp
  · rw [List.all_eq_true]
    intro w hm
    obtain ⟨idx, hi, rfl⟩ := hmem w hm
    have := rank_lt hi
    simp only [sizeOf_eq, decide_eq_true_eq]
    omega

theorem gradLane_get [Field K] (h : K) {n : Nat} (hn : 2 ≤ n) (y : Nat → K) {i : Nat} (hi : i < n) :
    (gradLane h n y).getD i 0 = if i = 0 then (y 1 - y 0) / h else if i + 1 = n then (y i - y (i - 1)) / h
      else (y (i + 1) - y (i - 1)) / (2 * h) := by
  unfold gradLane
  rcases Nat.eq_zero_or_pos i with rfl | h0
  · simp
  · rw [if_neg (by omega)]
    split
    · rename_i h1
      rw [List.getD_append_right _ _ _ _ (by simp; omega)]
      have e : i - (([(y 1 - y 0) / h] ++ (List.range' 1 (n - 1 - 1)).map fun i => (y (i + 1) - y (i - 1)) / (2 * h)).length) = 0 := by
        simp; omega
      rw [e, List.getD_cons_zero]
      subst h1
      rfl
    · rw [List.getD_append _ _ _ _ (by simp; omega), List.getD_append_right _ _ _ _ (by simp; omega),
        List.getD_eq_getElem _ _ (by simp; omega)]
      simp only [List.getElem_map, List.getElem_range', List.length_singleton]
      have e : 1 + 1 * (i - 1) = i := by omega
      rw [e]

theorem gradLane_length [Field K] (h : K) {n : Nat} (hn : 2 ≤ n) (y : Nat → K) : (gradLane h n y).length = n := by
  unfold gradLane
  simp
  omega

theorem gradLaneCoords_get [Field K] (x : List K) {n : Nat} (hn : 2 ≤ n) (y : Nat → K) {i : Nat} (hi : i < n) :
    (gradLaneCoords x n y).getD i 0 = if i = 0 then (y 1 - y 0) / (x.getD 1 0 - x.getD 0 0)
      else if i + 1 = n then (y i - y (i - 1)) / (x.getD i 0 - x.getD (i - 1) 0)
      else (y (i + 1) - y (i - 1)) / (x.getD (i + 1) 0 - x.getD (i - 1) 0) := by
  unfold gradLaneCoords
  rcases Nat.eq_zero_or_pos i with rfl | h0
  · simp
  · rw [if_neg (by omega)]
    split
    · rename_i h1
      rw [List.getD_append_right _ _ _ _ (by simp; omega)]
      have e : i - (([(y 1 - y 0) / (x.getD 1 0 - x.getD 0 0)] ++ (List.range' 1 (n - 1 - 1)).map
          fun i => (y (i + 1) - y (i - 1)) / (x.getD (i + 1) 0 - x.getD (i - 1) 0)).length) = 0 := by
        simp; omega
      rw [e, List.getD_cons_zero]
      subst h1
      rfl
    · rw [List.getD_append _ _ _ _ (by simp; omega), List.getD_append_right _ _ _ _ (by simp; omega),
        List.getD_eq_getElem _ _ (by simp; omega)]
      simp only [List.getElem_map, List.getElem_range', List.length_singleton]
      have e : 1 + 1 * (i - 1) = i := by omega
      rw [e]

theorem gradLaneCoords_length [Field K] (x : List K) {n : Nat} (hn : 2 ≤ n) (y : Nat → K) : (gradLaneCoords x n y).length = n := by
  unfold gradLaneCoords
  simp
  omega

theorem gradientLanes_uniform [Field K] {f : Held K} (hw : f.view.WF) {typed : Bool} {axis : Nat} (hax : axis < f.view.shape.length)
    (ht : typed = true → (f.view.item : Int) ∣ f.view.strides.getD axis 0) (hn : 2 ≤ f.view.shape.getD axis 0)
    (hs : f.view.strides.eraseIdx axis = (cStrides f.view.shape 8).eraseIdx axis) (h : K) :
    gradientLanes typed (gradLane h) f axis = some ⟨f.view.shape, (f.nd.gradient h axis).toList⟩ := by
  rw [gradientLanes_eq hw hax ht hn hs _ (gradLane_length h hn)]
  refine congrArg (fun d => some (Arr.mk f.view.shape d)) (List.map_congr_left fun idx hidx => ?_)
  have hin := mem_indices.1 hidx
  exact gradLane_get h hn _ (lane_of_index hax hin).2.1

theorem gradient_checks {s : List Nat} (h2 : ∀ d ∈ s, 2 ≤ d) :
    ¬(Rumpy.sizeOf s = 0 ∨ s.any (fun d => decide (d < 2)) = true) := by
  rw [sizeOf_eq, size_eq_zero_iff, List.any_eq_true]
  rintro (h | ⟨d, hd, hlt⟩)
  · exact absurd (h2 0 h) (by omega)
  · have := h2 d hd
    rw [decide_eq_true_eq] at hlt
    omega

theorem getD_mem_of_lt {l : List Nat} {i : Nat} (h : i < l.length) : l.getD i 0 ∈ l := by
  rw [List.getD_eq_getElem _ _ h]
  exact List.getElem_mem h

theorem getD_dvd {l : List Int} {d : Int} (h : ∀ s ∈ l, d ∣ s) (i : Nat) : d ∣ l.getD i 0 := by
  by_cases hi : i < l.length
  · rw [List.getD_eq_getElem _ _ hi]
    exact h _ (List.getElem_mem hi)
  · rw [List.getD_eq_default _ _ (by omega)]
    exact dvd_zero _

/-- C64 (partial): for an array whose axes are at least 2 long, `gradient` along an axis gives central differences inside and
one-sided differences at the ends.  `typed` says whether the element type has its own loop.
Missing: arrays whose other strides are not those of a fresh float64 array of the same shape
(`C64_gradient_float32_counterexample`, `C64_gradient_transposed_counterexample`, `C64_gradient_store_counterexample`), and
short axes other than the one differentiated (`C64_gradient_short_counterexample`). -/
theorem C64_gradient_partial [Field K] (typed : Bool) (f : Held K) (hw : f.view.WF)
    (ha : typed = true → ∀ s ∈ f.view.strides, (f.view.item : Int) ∣ s) (h2 : ∀ d ∈ f.view.shape, 2 ≤ d)
    (axis : Nat) (hax : axis < f.view.shape.length) (h : Option K)
    (hs : f.view.strides.eraseIdx axis = (cStrides f.view.shape 8).eraseIdx axis) :
    ∃ r, Rumpy.gradient typed f h (some axis) = .ok [r] ∧ r.Is (f.nd.gradient (h.getD 1) axis) := by
  unfold Rumpy.gradient
  rw [if_neg (gradient_checks h2)]
  dsimp only
  rw [if_pos hax, gradientLanes_uniform hw hax (fun t => getD_dvd (ha t) axis) (h2 _ (getD_mem_of_lt hax)) hs]
  exact ⟨_, rfl, rfl, rfl⟩

/-- C64 (partial): without an axis, `gradient` gives one array per axis, in order.  Missing: as above. -/
theorem C64_gradient_all_partial [Field K] (typed : Bool) (f : Held K) (hw : f.view.WF)
    (ha : typed = true → ∀ s ∈ f.view.strides, (f.view.item : Int) ∣ s) (h2 : ∀ d ∈ f.view.shape, 2 ≤ d) (h : Option K)
    (hs : f.view.shape.length = 1 ∨ f.view.strides = cStrides f.view.shape 8) :
    ∃ rs, Rumpy.gradient typed f h none = .ok rs ∧
      List.Forall₂ (fun r axis => r.Is (f.nd.gradient (h.getD 1) axis)) rs (List.range f.view.shape.length) := by
  have hs' : ∀ axis < f.view.shape.length, f.view.strides.eraseIdx axis = (cStrides f.view.shape 8).eraseIdx axis := by
    intro axis hax
    rcases hs with hs | hs
    · have hl := hw.len
      obtain rfl : axis = 0 := by omega
      have e1 : (f.view.strides.eraseIdx 0).length = 0 := by rw [List.length_eraseIdx]; split <;> omega
      have e2 : ((cStrides f.view.shape 8).eraseIdx 0).length = 0 := by
        have := (View.WF.fresh f.view.shape 8).len
        simp only [View.fresh] at this
        rw [List.length_eraseIdx]; split <;> omega
      rw [List.length_eq_zero_iff.1 e1, List.length_eq_zero_iff.1 e2]
    · rw [hs]
  unfold Rumpy.gradient
  rw [if_neg (gradient_checks h2)]
  dsimp only
  have e : (List.range f.view.shape.length).map (fun ax => gradientLanes typed (gradLane (h.getD 1)) f ax) =
      ((List.range f.view.shape.length).map fun ax => (⟨f.view.shape, (f.nd.gradient (h.getD 1) ax).toList⟩ : Arr K)).map some := by
    rw [List.map_map]
    apply List.map_congr_left
    intro ax hm
    have hax := List.mem_range.1 hm
    exact gradientLanes_uniform hw hax (fun t => getD_dvd (ha t) ax) (h2 _ (getD_mem_of_lt hax)) (hs' ax hax) _
  rw [e, collectAll]
  have e2 : ∀ l : List (Arr K), (l.map some).mapM id = some l := by
    intro l
    induction l with
    | nil => rfl
    | cons a l ih => simp [ih]
  rw [e2]
  refine ⟨_, rfl, ?_⟩
  rw [List.forall₂_map_left_iff]
  exact List.forall₂_same.2 fun ax _ => ⟨rfl, rfl⟩

/-- C64: `gradient` is refused exactly when some axis is shorter than 2 or the axis does not exist. -/
theorem C64_gradient_error_iff [Field K] (typed : Bool) (f : Held K) (h : Option K) (axis : Option Nat) :
    Rumpy.gradient typed f h axis = .error ↔
      (∃ d ∈ f.view.shape, d < 2) ∨ ∃ ax, axis = some ax ∧ f.view.shape.length ≤ ax := by
  have hc : (Rumpy.sizeOf f.view.shape = 0 ∨ f.view.shape.any (fun d => decide (d < 2)) = true) ↔ ∃ d ∈ f.view.shape, d < 2 := by
    rw [sizeOf_eq, size_eq_zero_iff, List.any_eq_true]
    simp only [decide_eq_true_eq]
    exact ⟨fun h => h.elim (fun h => ⟨0, h, by omega⟩) id, Or.inr⟩
  have hcol : ∀ l : List (Option (Arr K)), collectAll l ≠ .error := by
    intro l
    unfold collectAll
    split <;> simp
  unfold Rumpy.gradient
  by_cases hd : ∃ d ∈ f.view.shape, d < 2
  · rw [if_pos (hc.2 hd)]
    exact ⟨fun _ => Or.inl hd, fun _ => rfl⟩
  · rw [if_neg (fun h => hd (hc.1 h))]
    cases axis with
    | none => exact ⟨fun e => absurd e (hcol _), fun e => e.elim (fun e => absurd e hd) (by simp)⟩
    | some ax =>
      dsimp only
      by_cases hax : ax < f.view.shape.length
      · rw [if_pos hax]
        refine ⟨fun e => absurd e (hcol _), fun e => e.elim (fun e => absurd e hd) ?_⟩
        rintro ⟨ax', e, hle⟩
        cases e
        omega
      · rw [if_neg hax]
        exact ⟨fun _ => Or.inr ⟨ax, rfl, by omega⟩, fun _ => rfl⟩

/-- C64: along an axis on which the samples are those of a quadratic function `c₀ + c₁ x + c₂ x²` at `x = h·i`, the result is
the derivative `c₁ + 2 c₂ x`, except at the ends; for a linear function also there. -/
theorem C64_gradient_exact [Field K] [CharZero K] (typed : Bool) (f : Held K) (hw : f.view.WF)
    (ha : typed = true → ∀ s ∈ f.view.strides, (f.view.item : Int) ∣ s) (h2 : ∀ d ∈ f.view.shape, 2 ≤ d)
    (axis : Nat) (hax : axis < f.view.shape.length) (h : K) (hh : h ≠ 0)
    (hs : f.view.strides.eraseIdx axis = (cStrides f.view.shape 8).eraseIdx axis) (c0 c1 c2 : List Nat → K)
    (hf : ∀ idx, InShape f.view.shape idx → f.nd.get idx = c0 (idx.eraseIdx axis) +
      c1 (idx.eraseIdx axis) * (h * (idx.getD axis 0 : Nat)) + c2 (idx.eraseIdx axis) * (h * (idx.getD axis 0 : Nat)) ^ 2) :
    ∃ r, Rumpy.gradient typed f (some h) (some axis) = .ok [r] ∧ ∀ idx, InShape f.view.shape idx →
      (c2 (idx.eraseIdx axis) = 0 ∨ (0 < idx.getD axis 0 ∧ idx.getD axis 0 + 1 < f.view.shape.getD axis 0)) →
      r.at? idx = some (c1 (idx.eraseIdx axis) + 2 * c2 (idx.eraseIdx axis) * (h * (idx.getD axis 0 : Nat))) := by
  obtain ⟨r, hr, hi⟩ := C64_gradient_partial typed f hw ha h2 axis hax (some h) hs
  refine ⟨r, hr, ?_⟩
  intro idx hin hcase
  rw [hi.at? (show InShape (f.nd.gradient _ axis).shape idx from hin)]
  have hn : 2 ≤ f.view.shape.getD axis 0 := h2 _ (getD_mem_of_lt hax)
  have hl := hin.length_eq
  obtain ⟨hi1, hi2, hi3⟩ := lane_of_index hax hin
  have hget : ∀ j, j < f.view.shape.getD axis 0 → f.nd.get (idx.set axis j) = c0 (idx.eraseIdx axis) +
      c1 (idx.eraseIdx axis) * (h * (j : K)) + c2 (idx.eraseIdx axis) * (h * (j : K)) ^ 2 := by
    intro j hj
    have e := insertIdx_eraseIdx_set (l := idx) j (axis := axis) (by omega)
    have hle : axis ≤ (idx.eraseIdx axis).length := by rw [lane_length hax hi1]; omega
    rw [← e, hf _ (inShape_insertIdx hax hi1 hj), eraseIdx_insertIdx_self _ _ _ hle, getD_insertIdx_self _ _ _ hle]
  have hshape : f.nd.shape = f.view.shape := rfl
  congr 1
  show (if idx.getD axis 0 = 0 then _ else _) = _
  rw [hshape]
  simp only [Option.getD_some]
  generalize idx.getD axis 0 = i at *
  split
  · rename_i h0
    subst h0
    rw [hget 1 (by omega), hget 0 (by omega)]
    rcases hcase with hc | hc
    · rw [hc]; field_simp; push_cast; ring
    · omega
  · split
    · rw [hget i (by omega), hget (i - 1) (by omega)]
      rcases hcase with hc | hc
      · rw [hc, Nat.cast_sub (by omega)]; field_simp; push_cast; ring
      · omega
    · rw [hget (i + 1) (by omega), hget (i - 1) (by omega), Nat.cast_sub (by omega)]
      field_simp
      push_cast
      ring

/-- C64 (partial): with coordinates whose inner intervals are equal to their neighbours, the result is NumPy's second-order
formula.  Missing: unequal intervals (`C64_gradient_coords_counterexample`) and the layouts of
`C64_gradient_float32_counterexample`. -/
theorem C64_gradient_coords_partial [Field K] [CharZero K] (typed : Bool) (f x : Held K) (hw : f.view.WF) (hx : x.view.WF)
    (ha : typed = true → ∀ s ∈ f.view.strides, (f.view.item : Int) ∣ s)
    (axis : Nat) (hax : axis < f.view.shape.length) (h2 : 2 ≤ f.view.shape.getD axis 0)
    (hs : f.view.strides.eraseIdx axis = (cStrides f.view.shape 8).eraseIdx axis)
    (hxs : x.view.shape = [f.view.shape.getD axis 0])
    (heq : ∀ i, 0 < i → i + 1 < f.view.shape.getD axis 0 →
      x.nd.get [i + 1] - x.nd.get [i] = x.nd.get [i] - x.nd.get [i - 1] ∧ x.nd.get [i] ≠ x.nd.get [i - 1]) :
    ∃ r, gradientWithCoords typed f x axis = .ok r ∧ r.Is (f.nd.gradientAt (fun i => x.nd.get [i]) axis) := by
  unfold gradientWithCoords
  rw [if_neg (by rw [hxs, sizeOf_eq]; simp [size]; omega)]
  rw [gradientLanes_eq hw hax (fun t => getD_dvd (ha t) axis) h2 hs _ (gradLaneCoords_length _ h2)]
  refine ⟨_, rfl, rfl, ?_⟩
  refine List.map_congr_left fun idx hidx => ?_
  have hin := mem_indices.1 hidx
  have hlt := (lane_of_index hax hin).2.1
  have hX : ∀ i, i < f.view.shape.getD axis 0 → (toVec x).getD i 0 = x.nd.get [i] := by
    intro i hi
    have hs1 : x.nd.shape = [f.view.shape.getD axis 0] := hxs
    rw [toVec_eq hx, toList_one hs1, List.getD_eq_getElem _ _ (by simpa using hi)]
    simp
  rw [gradLaneCoords_get _ h2 _ hlt]
  have hshape : f.nd.shape = f.view.shape := rfl
  show _ = (if idx.getD axis 0 = 0 then _ else _)
  rw [hshape]
  generalize hii : idx.getD axis 0 = i at *
  split
  · rw [hX 1 (by omega), hX 0 (by omega)]
  · split
    · rw [hX i (by omega), hX (i - 1) (by omega)]
    · rw [hX (i + 1) (by omega), hX (i - 1) (by omega)]
      obtain ⟨e1, e2⟩ := heq i (by omega) (by omega)
      dsimp only
      rw [e1]
      have e3 : x.nd.get [i + 1] - x.nd.get [i - 1] = 2 * (x.nd.get [i] - x.nd.get [i - 1]) := by linear_combination e1
      rw [e3]
      have hne : x.nd.get [i] - x.nd.get [i - 1] ≠ 0 := sub_ne_zero.2 e2
      generalize x.nd.get [i] - x.nd.get [i - 1] = d at hne
      field_simp
      ring

/-- A 2 × 2 float32 array: `[[1, 2], [3, 7]]`. -/
def grad32 : Held ℚ := Held.of ⟨[2, 2], [1, 2, 3, 7]⟩ 4 0

/-- C64 disagreement: for a float32 array of two rows the second row of the result is stored over the first one. -/
theorem C64_gradient_float32_counterexample :
    Rumpy.gradient true grad32 none (some 1) = .ok [⟨[2, 2], [1, 4, 4, 0]⟩] ∧
      (grad32.nd.gradient 1 1).toList = [1, 1, 4, 4] := by
  decide +kernel

/-- C64 disagreement: for the transpose of a 2 × 3 float64 array the stores go to wrong places. -/
theorem C64_gradient_transposed_counterexample :
    let f : Held ℚ := ⟨(⟨[2, 3], [1, 2, 4, 8, 16, 32]⟩ : Arr ℚ).mem 8 0, ⟨0, [3, 2], [8, 24], 8, false, true⟩⟩
    Rumpy.gradient true f none (some 1) = .ok [⟨[3, 2], [7, 14, 28, 28, 0, 0]⟩] ∧
      (f.nd.gradient 1 1).toList = [7, 7, 14, 14, 28, 28] := by
  decide +kernel

/-- C64 disagreement: every other row of a float64 array of three rows; a store goes outside the result. -/
theorem C64_gradient_store_counterexample :
    let f : Held ℚ := ⟨(⟨[3, 2], [1, 2, 3, 4, 5, 6]⟩ : Arr ℚ).mem 8 0, ⟨0, [2, 2], [32, 8], 8, false, false⟩⟩
    Rumpy.gradient true f none (some 1) = .panic := by
  decide +kernel

/-- C64 disagreement: a single row of three elements cannot be differentiated along the row. -/
theorem C64_gradient_short_counterexample :
    let f : Held ℚ := Held.of ⟨[1, 3], [1, 2, 4]⟩ 8 0
    Rumpy.gradient true f none (some 1) = .error ∧ (f.nd.gradient 1 1).toList = [1, 3 / 2, 2] := by
  decide +kernel

/-- C64 disagreement: the samples of `x²` at 0, 1 and 3 give the slope 3 at 1; the second-order formula gives 2, the
derivative. -/
theorem C64_gradient_coords_counterexample :
    let f : Held ℚ := Held.of ⟨[3], [0, 1, 9]⟩ 8 0
    let x : Held ℚ := Held.of ⟨[3], [0, 1, 3]⟩ 8 0
    gradientWithCoords true f x 0 = .ok ⟨[3], [1, 3, 4]⟩ ∧
      (f.nd.gradientAt (fun i => x.nd.get [i]) 0).toList = [1, 2, 4] := by
  decide +kernel

/-- Non-vacuity: a reversed vector of int32. -/
example : ∃ r, Rumpy.gradient true (⟨(⟨[4], [1, 2, 4, 8]⟩ : Arr ℚ).mem 4 0, ⟨12, [4], [-4], 4, false, false⟩⟩ : Held ℚ)
    (some 2) (some 0) = .ok [r] ∧ r.data = [-2, -3 / 2, -3 / 4, -1 / 2] := by
  obtain ⟨r, h1, h2⟩ := C64_gradient_partial true
    (⟨(⟨[4], [1, 2, 4, 8]⟩ : Arr ℚ).mem 4 0, ⟨12, [4], [-4], 4, false, false⟩⟩ : Held ℚ)
    ⟨rfl, by simp, by simp⟩ (by simp) (by simp) 0 (by simp) (some 2) rfl
  exact ⟨r, h1, h2.2.trans (by decide +kernel)⟩

/-! ### trapezoid -/

theorem foldl_add_sum [AddCommMonoid K] (f : Nat → K) (n : Nat) :
    (List.range n).foldl (fun s j => s + f j) 0 = ∑ j ∈ Finset.range n, f j := by
  induction n with
  | zero => rfl
  | succ n ih => rw [List.range_succ, List.foldl_append, ih, Finset.sum_range_succ]; rfl

/-- C64 (partial): `trapezoid` is the sum of the areas of the trapezoids along the axis, for every layout.  The widths are `dx`,
or the differences of the coordinates.
Missing: a vector gives the shape `(1,)`, not `()`; coordinates of another shape are not used
(`C64_trapezoid_coords_counterexample`). -/
theorem C64_trapezoid_partial [Field K] (typed : Bool) (y : Held K) (x : Option (Held K)) (dx : K) (hw : y.view.WF)
    (ha : typed = true → ∀ s ∈ y.view.strides, (y.view.item : Int) ∣ s) (axis : Int) (k : Nat)
    (hk : k < y.view.shape.length) (hax : axis = k ∨ axis = (k : Int) - y.view.shape.length)
    (hx : ∀ xa, x = some xa → xa.view.WF ∧ xa.view.shape = [y.view.shape.getD k 0]) :
    ∃ r, Rumpy.trapezoid typed y x dx axis = some r ∧
      r.shape = (if y.view.shape.length = 1 then [1] else y.view.shape.eraseIdx k) ∧
      r.data = (y.nd.trapezoid (x.elim (fun _ => dx) fun xa j => xa.nd.get [j + 1] - xa.nd.get [j]) k).toList := by
  have hnorm : (if axis < 0 then (y.view.shape.length : Int) + axis else axis) = k := by
    split <;> omega
  have hsh : (if (y.view.shape.eraseIdx k).isEmpty then [1] else y.view.shape.eraseIdx k) =
      (if y.view.shape.length = 1 then [1] else y.view.shape.eraseIdx k) := by
    congr 1
    rw [List.isEmpty_iff_length_eq_zero, List.length_eraseIdx, if_pos hk]
    exact propext ⟨fun h => by omega, fun h => by omega⟩
  have hlane : ∀ idx, InShape (y.view.shape.eraseIdx k) idx →
      trapLane (y.view.shape.getD k 0) dx (trapCoords x (y.view.shape.getD k 0))
        (laneRead typed y k (byteOffset idx (y.view.strides.eraseIdx k))) =
      (y.nd.trapezoid (x.elim (fun _ => dx) fun xa j => xa.nd.get [j + 1] - xa.nd.get [j]) k).get idx := by
    intro idx hi
    unfold trapLane
    rw [foldl_add_sum]
    show _ = ∑ j ∈ Finset.range (y.view.shape.getD k 0 - 1), _
    apply Finset.sum_congr rfl
    intro j hj
    have hj := Finset.mem_range.1 hj
    rw [laneRead_eq hw hk (fun t => getD_dvd (ha t) k) hi, laneRead_eq hw hk (fun t => getD_dvd (ha t) k) hi]
    cases x with
    | none => simp only [trapCoords, Option.bind_none, Option.elim_none]; ring
    | some xa =>
      obtain ⟨hxw, hxs⟩ := hx xa rfl
      have hX : ∀ i, i < y.view.shape.getD k 0 → (toVec xa).getD i 0 = xa.nd.get [i] := by
        intro i hi
        have hs1 : xa.nd.shape = [y.view.shape.getD k 0] := hxs
        rw [toVec_eq hxw, toList_one hs1, List.getD_eq_getElem _ _ (by simpa using hi)]
        simp
      have hc : trapCoords (some xa) (y.view.shape.getD k 0) = some (toVec xa) := by
        unfold trapCoords
        rw [Option.bind_some, if_neg (by rw [hxs, sizeOf_eq]; simp [size])]
      simp only [hc, Option.elim_some]
      rw [hX (j + 1) (by omega), hX j (by omega)]
      ring
  unfold Rumpy.trapezoid
  dsimp only
  rw [if_neg (by omega), hnorm, if_neg (by omega), Int.toNat_natCast, hsh]
  split
  · rename_i hn
    refine ⟨_, rfl, rfl, ?_⟩
    dsimp only
    rw [← hsh, sizeOf_eq, outShape_size, eq_comm, List.eq_replicate_iff]
    constructor
    · rw [Nd.toList, List.length_map, length_indices]; rfl
    · intro b hb
      obtain ⟨idx, hidx, rfl⟩ := List.mem_map.1 hb
      show (∑ j ∈ Finset.range (y.view.shape.getD k 0 - 1), _) = _
      have e : y.view.shape.getD k 0 - 1 = 0 := by omega
      rw [e, Finset.sum_range_zero]
  · refine ⟨_, rfl, rfl, ?_⟩
    dsimp only
    rw [lanes_eq (fun base => trapLane (y.view.shape.getD k 0) dx (trapCoords x (y.view.shape.getD k 0)) (laneRead typed y k base)) hw _
      (by rw [List.length_replicate, ← hsh, sizeOf_eq, outShape_size])]
    exact List.map_congr_left fun idx hidx => hlane idx (mem_indices.1 hidx)

/-- C64: `trapezoid` of an array with at least one axis is refused exactly when the axis does not exist. -/
theorem C64_trapezoid_refused_iff [Field K] (typed : Bool) (y : Held K) (x : Option (Held K)) (dx : K) (axis : Int)
    (h : y.view.shape ≠ []) :
    Rumpy.trapezoid typed y x dx axis = none ↔ axis < -(y.view.shape.length : Int) ∨ (y.view.shape.length : Int) ≤ axis := by
  have h0 : y.view.shape.length ≠ 0 := fun e => h (List.length_eq_zero_iff.1 e)
  unfold Rumpy.trapezoid
  dsimp only
  rw [if_neg h0]
  by_cases hc : axis < -(y.view.shape.length : Int) ∨ (y.view.shape.length : Int) ≤ axis
  · rw [if_pos (by split <;> omega)]
    exact ⟨fun _ => hc, fun _ => rfl⟩
  · rw [if_neg (by split <;> omega)]
    refine ⟨fun e => absurd e ?_, fun e => absurd e hc⟩
    generalize (if axis < 0 then (y.view.shape.length : Int) + axis else axis).toNat = k
    by_cases hk : y.view.shape.getD k 0 ≤ 1
    · rw [if_pos hk]; exact Option.some_ne_none _
    · rw [if_neg hk]; exact Option.some_ne_none _

/-- C64 disagreement: coordinates whose number does not match are ignored without an error; so are coordinates with the shape of
a 2-d array. -/
theorem C64_trapezoid_coords_counterexample :
    let y : Held ℚ := Held.of ⟨[3], [1, 1, 1]⟩ 8 0
    let y2 : Held ℚ := Held.of ⟨[1, 3], [1, 1, 1]⟩ 8 0
    Rumpy.trapezoid true y (some (Held.of ⟨[2], [0, 5]⟩ 8 0)) 1 (-1) = some ⟨[1], [2]⟩ ∧
      Rumpy.trapezoid true y2 (some (Held.of ⟨[1, 3], [0, 5, 10]⟩ 8 0)) 1 (-1) = some ⟨[1], [2]⟩ := by
  decide +kernel

/-- Non-vacuity: coordinates 0, 1, 3 for the columns of a transposed array. -/
example : ∃ r, Rumpy.trapezoid true
      (⟨(⟨[2, 3], [1, 2, 4, 8, 16, 32]⟩ : Arr ℚ).mem 8 0, ⟨0, [3, 2], [8, 24], 8, false, true⟩⟩ : Held ℚ)
      (some (Held.of ⟨[3], [0, 1, 3]⟩ 8 0)) 1 (-2) = some r ∧ r.shape = [2] ∧ r.data = [15 / 2, 60] := by
  obtain ⟨r, h1, h2, h3⟩ := C64_trapezoid_partial true
    (⟨(⟨[2, 3], [1, 2, 4, 8, 16, 32]⟩ : Arr ℚ).mem 8 0, ⟨0, [3, 2], [8, 24], 8, false, true⟩⟩ : Held ℚ)
    (some (Held.of ⟨[3], [0, 1, 3]⟩ 8 0)) 1 ⟨rfl, by simp, by decide⟩ (by simp) (-2) 0 (by simp) (by simp)
    (by rintro xa h; cases h; exact ⟨View.WF.fresh _ _, rfl⟩)
  exact ⟨r, h1, h2, h3.trans (by decide +kernel)⟩

/-! ### interp -/

theorem interpSearch_spec [LinearOrder K] (xp : Nat → K) (xi : K) : ∀ (fuel lo hi : Nat), lo < hi → hi - lo ≤ fuel →
    xp lo ≤ xi → xi < xp hi →
    ∃ k, interpSearch xp xi fuel lo hi = (k, k + 1) ∧ lo ≤ k ∧ k + 1 ≤ hi ∧ xp k ≤ xi ∧ xi < xp (k + 1) := by
  intro fuel
  induction fuel with
  | zero => intro lo hi h1 h2; omega
  | succ fuel ih =>
    intro lo hi h1 h2 h3 h4
    unfold interpSearch
    split
    · dsimp only
      split
      · rename_i hm
        obtain ⟨k, e, a, b, c⟩ := ih ((lo + hi) / 2) hi (by omega) (by omega) hm h4
        exact ⟨k, e, by omega, b, c⟩
      · rename_i hm
        obtain ⟨k, e, a, b, c⟩ := ih lo ((lo + hi) / 2) (by omega) (by omega) h3 (not_le.1 hm)
        exact ⟨k, e, a, by omega, c⟩
    · have e : hi = lo + 1 := by omega
      subst e
      exact ⟨lo, rfl, le_refl _, le_refl _, h3, h4⟩

/-- C64 (partial): `interp` is the piecewise linear function through the points, for every layout of `x`.  Below the first point
it is `left` (or the first value), above the last point `right` (or the last value).
Missing: with `left` or `right` given, the values at the first and the last point themselves
(`C64_interp_ends_counterexample`); no points at all (`C64_interp_empty_counterexample`). -/
theorem C64_interp_partial [Field K] [LinearOrder K] (typed : Bool) (x xp fp : Held K) (hx : x.view.WF) (hxp : xp.view.WF)
    (hfp : fp.view.WF) (ha : typed = true → ∀ s ∈ x.view.strides, (x.view.item : Int) ∣ s) (n : Nat) (hn : 0 < n)
    (hs1 : xp.view.shape = [n]) (hs2 : fp.view.shape = [n]) (left right : Option K) :
    ∃ r, Rumpy.interp typed x xp fp left right = some r ∧ r.shape = x.view.shape ∧ ∀ idx, InShape x.view.shape idx →
      ∃ y, r.at? idx = some y ∧
        (x.nd.get idx < xp.nd.get [0] → y = left.getD (fp.nd.get [0])) ∧
        (xp.nd.get [0] ≤ xp.nd.get [n - 1] → xp.nd.get [n - 1] < x.nd.get idx → y = right.getD (fp.nd.get [n - 1])) ∧
        (xp.nd.get [0] ≤ x.nd.get idx → x.nd.get idx ≤ xp.nd.get [n - 1] →
          (left = none ∨ x.nd.get idx ≠ xp.nd.get [0]) → (right = none ∨ x.nd.get idx ≠ xp.nd.get [n - 1]) →
          IsInterp xp.nd.toList fp.nd.toList (x.nd.get idx) y) := by
  have hX : toVec xp = xp.nd.toList := toVec_eq hxp
  have hF : toVec fp = fp.nd.toList := toVec_eq hfp
  have hXl : xp.nd.toList = (List.range n).map fun i => xp.nd.get [i] := toList_one hs1
  have hFl : fp.nd.toList = (List.range n).map fun i => fp.nd.get [i] := toList_one hs2
  have hXg : ∀ i, i < n → xp.nd.toList.getD i 0 = xp.nd.get [i] := by
    intro i hi
    rw [hXl, List.getD_eq_getElem _ _ (by simpa using hi)]
    simp
  have hFg : ∀ i, i < n → fp.nd.toList.getD i 0 = fp.nd.get [i] := by
    intro i hi
    rw [hFl, List.getD_eq_getElem _ _ (by simpa using hi)]
    simp
  have hlen : xp.nd.toList.length = n := by rw [hXl]; simp
  have hsize : Rumpy.sizeOf xp.view.shape = n := by rw [hs1, sizeOf_eq]; simp [size]
  have hsize2 : Rumpy.sizeOf fp.view.shape = n := by rw [hs2, sizeOf_eq]; simp [size]
  -- the whole result
  have hall : ∃ r, Rumpy.interp typed x xp fp left right = some r ∧ r.Is ⟨x.view.shape, fun idx =>
      interpSingle (x.nd.get idx) xp.nd.toList fp.nd.toList (left.getD (fp.nd.get [0])) (right.getD (fp.nd.get [n - 1]))⟩ := by
    unfold Rumpy.interp
    rw [if_neg (by rw [hsize, hsize2, hs1, hs2]; simp)]
    dsimp only
    rw [hsize, if_neg (by omega), hX, hF, hFg 0 hn, hFg (n - 1) (by omega)]
    split
    · rename_i h0
      refine ⟨_, rfl, rfl, ?_⟩
      rw [sizeOf_eq] at h0
      dsimp only
      rw [sizeOf_eq, h0]
      symm
      rw [List.replicate_zero, ← List.length_eq_zero_iff, Nd.toList, List.length_map, length_indices]
      exact h0
    · refine ⟨_, rfl, rfl, ?_⟩
      dsimp only
      rw [writes_zipIdx (fun o => interpSingle (if typed then
          x.mem (x.view.offset + (o - x.view.offset).tdiv x.view.item * x.view.item) else x.mem o) xp.nd.toList fp.nd.toList
            (left.getD (fp.nd.get [0])) (right.getD (fp.nd.get [n - 1]))) _ _
          (by rw [List.length_replicate, sizeOf_eq, addrs_eq hx, List.length_map, length_indices]), addrs_eq hx, List.map_map]
      refine List.map_congr_left fun idx _ => ?_
      dsimp only [Function.comp_apply]
      congr 1
      split
      · rename_i ht
        have hd : (x.view.item : Int) ∣ x.view.addr idx - x.view.offset := by
          unfold View.addr
          rw [add_sub_cancel_left]
          exact byteOffset_dvd (ha ht)
        rw [Int.tdiv_mul_cancel hd]
        show x.mem _ = x.mem _
        congr 1
        omega
      · rfl
  obtain ⟨r, hr, hi⟩ := hall
  refine ⟨r, hr, hi.1, fun idx hin => ⟨_, hi.at? hin, ?_⟩⟩
  dsimp only
  unfold interpSingle
  dsimp only
  rw [hlen, hXg 0 hn, hXg (n - 1) (by omega)]
  refine ⟨fun h => if_pos h.le, fun h01 h => ?_, fun h1 h2 hl hr => ?_⟩
  · rw [if_neg (not_le.2 (lt_of_le_of_lt h01 h)), if_pos h.le]
  · split
    · rename_i hle
      have he := le_antisymm hle h1
      rcases hl with rfl | hl
      · exact Or.inl ⟨0, by omega, by rw [hXg 0 hn, he], by rw [hFg 0 hn]; rfl⟩
      · exact absurd he hl
    · rename_i hlt
      split
      · rename_i hle
        have he := le_antisymm h2 hle
        rcases hr with rfl | hr
        · exact Or.inl ⟨n - 1, by omega, by rw [hXg _ (by omega), he], by rw [hFg _ (by omega)]; rfl⟩
        · exact absurd he hr
      · rename_i hgt
        have hn2 : 0 < n - 1 := by
          rcases Nat.lt_or_ge 1 n with h | h
          · omega
          · exfalso
            have : n - 1 = 0 := by omega
            rw [this] at hgt
            exact hgt (not_le.1 hlt).le
        obtain ⟨k, e, hk0, hk1, hk2, hk3⟩ := interpSearch_spec (fun i => xp.nd.toList.getD i 0) (x.nd.get idx) n 0 (n - 1) hn2
          (by omega) (by rw [hXg 0 hn]; exact h1) (by rw [hXg _ (by omega)]; exact not_le.1 hgt)
        rw [e]
        dsimp only at hk2 hk3 ⊢
        rcases hk2.eq_or_lt with heq | hlt2
        · refine Or.inl ⟨k, by omega, heq.symm, ?_⟩
          rw [heq, sub_self, zero_div, zero_mul, add_zero]
        · exact Or.inr ⟨k, by omega, hlt2, hk3, rfl⟩

/-- C64: on increasing points the interpolated value is unique, so `IsInterp` describes a function. -/
theorem C64_interp_unique [Field K] [LinearOrder K] {xp fp : List K} (hinc : ∀ i j, i < j → j < xp.length → xp.getD i 0 < xp.getD j 0)
    {x y z : K} (hy : IsInterp xp fp x y) (hz : IsInterp xp fp x z) : y = z := by
  have hmono : ∀ i j, i ≤ j → j < xp.length → xp.getD i 0 ≤ xp.getD j 0 := by
    intro i j h1 h2
    rcases h1.eq_or_lt with rfl | h1
    · exact le_refl _
    · exact (hinc i j h1 h2).le
  -- a node is not strictly between two neighbouring nodes
  have hno : ∀ i k, i < xp.length → k + 1 < xp.length → xp.getD k 0 < xp.getD i 0 → ¬ xp.getD i 0 < xp.getD (k + 1) 0 := by
    intro i k hi hk h1 h2
    rcases Nat.lt_or_ge k i with h | h
    · exact absurd h2 (not_lt.2 (hmono (k + 1) i h hi))
    · exact absurd h1 (not_lt.2 (hmono i k h (by omega)))
  rcases hy with ⟨i, hi, hxi, rfl⟩ | ⟨k, hk, h1, h2, rfl⟩ <;> rcases hz with ⟨j, hj, hxj, rfl⟩ | ⟨l, hl, h3, h4, rfl⟩
  · have : i = j := by
      rcases Nat.lt_trichotomy i j with h | h | h
      · exact absurd (hxi.symm.trans hxj) (hinc i j h hj).ne
      · exact h
      · exact absurd (hxj.symm.trans hxi) (hinc j i h hi).ne
    rw [this]
  · exact absurd (hxi ▸ h4) (hno i l hi hl (hxi ▸ h3))
  · exact absurd (hxj ▸ h2) (hno j k hj hk (hxj ▸ h1))
  · have : k = l := by
      rcases Nat.lt_trichotomy k l with h | h | h
      · exact absurd (h2.trans_le (hmono (k + 1) l h (by omega))) (not_lt.2 h3.le)
      · exact h
      · exact absurd (h4.trans_le (hmono (l + 1) k h (by omega))) (not_lt.2 h1.le)
    rw [this]

/-- C64 disagreement: with `left` and `right` given, the first and the last point count as outside. -/
theorem C64_interp_ends_counterexample :
    Rumpy.interp true (Held.of ⟨[3], [0, 1 / 2, 1]⟩ 8 0) (Held.of ⟨[2], [0, 1]⟩ 8 0 : Held ℚ) (Held.of ⟨[2], [10, 20]⟩ 8 0)
      (some (-1)) (some (-2)) = some ⟨[3], [-1, 15, -2]⟩ := by
  decide +kernel

/-- C64 disagreement: without points the result is zero (NumPy refuses). -/
theorem C64_interp_empty_counterexample :
    Rumpy.interp true (Held.of ⟨[1], [5]⟩ 8 0) (Held.of ⟨[0], []⟩ 8 0 : Held ℚ) (Held.of ⟨[0], []⟩ 8 0) none none =
      some ⟨[1], [0]⟩ := by
  decide +kernel

/-- Non-vacuity: three points, and a 2-d array of positions. -/
example : Rumpy.interp true (Held.of ⟨[2, 2], [-1, 1 / 2, 2, 7]⟩ 8 0) (Held.of ⟨[3], [0, 1, 3]⟩ 8 0 : Held ℚ)
    (Held.of ⟨[3], [10, 20, 0]⟩ 8 0) none none = some ⟨[2, 2], [10, 15, 10, 0]⟩ ∧
    IsInterp [0, 1, 3] [10, 20, 0] (2 : ℚ) 10 := by
  refine ⟨by decide +kernel, Or.inr ⟨1, by decide, ?_⟩⟩
  norm_num

end Props
