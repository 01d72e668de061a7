import Verif.Lemmas.View
/-!
# C03 (flags of views), C04, C06, C07, C08, C10: the view operations
-/

namespace Props
open Spec Rumpy

/-! ### C04 slicing -/

/-- C04, proved part: `slice_axis` called with Python's own normalised bounds gives exactly
the elements of `a[start:stop:step]` along the axis, for any step of either sign, provided
the axis has a non-negative stride.  The missing part is false: see
`C04_slice_reversed_counterexample`. -/
theorem C04_slice_partial (mem : Int → α) (v : View) (hw : v.WF) (axis len : Nat) (st : Int)
    (i j : Option Int) (step : Int) (hs : step ≠ 0)
    (hlen : v.shape[axis]? = some len) (hst : v.strides[axis]? = some st) (hpos : 0 ≤ st) :
    ∃ v' n, v.sliceAxis axis (sliceStart len i step) (sliceStop len j step) step = some v' ∧ v'.WF ∧
      IsSliceLen (sliceStart len i step) (sliceStop len j step) step n ∧
      (v'.denote mem).Same ((v.denote mem).slice axis (sliceStart len i step) step n) ∧
      ∀ k, k < n → 0 ≤ sliceStart len i step + k * step ∧ sliceStart len i step + k * step < len := by
  have hn := sliceLen_spec (start := sliceStart len i step) (stop := sliceStop len j step) hs
  obtain ⟨v', h1, _, _, _, h4, h5, _⟩ := sliceAxis_denote mem (v := v) hs hlen hst
    (start := sliceStart len i step) (stop := sliceStop len j step) (Or.inl hpos)
    (fun k hk => (slice_positions hs hn hk).1)
  exact ⟨v', _, h1, h4 hw.len, hn, h5, fun k hk => slice_positions hs hn hk⟩

/-- The hypotheses are met, with a negative step: `a[3:0:-2]` of five 8-byte items. -/
example : (View.fresh [5] 8).sliceAxis 0 (sliceStart 5 (some 3) (-2)) (sliceStop 5 (some 0) (-2)) (-2)
    = some ⟨24, [2], [-16], 8, false, false⟩ := by decide

/-- C04 fails for an axis that an earlier slice reversed: `a[::-1][1:]` on `[10, 20, 30]`
should be `[20, 10]`; the code reads one element past the end of the buffer and yields
`[past the end, 30]`. -/
theorem C04_slice_reversed_counterexample :
    let v := View.fresh [3] 1
    let r : Option View := do
      let w ← v.sliceAxis 0 (sliceStart 3 none (-1)) (sliceStop 3 none (-1)) (-1)
      w.sliceAxis 0 (sliceStart 3 (some 1) 1) (sliceStop 3 none 1) 1
    r.map (fun w => (indices w.shape).map w.addr) = some [3, 2] ∧
    -- what NumPy reads: elements at byte addresses 1 and 0
    (((v.denote id).slice 0 2 (-1) 3).slice 0 1 1 2).toList = [1, 0] := by
  decide

/-! ### C06 axis permutations -/

/-- C06: `transpose` reverses the axes and every element keeps its value. -/
theorem C06_transpose (mem : Int → α) (v : View) (hw : v.WF) :
    (v.transpose.denote mem).Same ((v.denote mem).transpose) := by
  refine ⟨rfl, fun idx hi => ?_⟩
  simp only [View.denote, View.transpose, View.viewWith] at hi
  have hl := hi.length_eq
  simp only [View.denote, Nd.transpose, View.transpose, View.viewWith, View.addr]
  have := byteOffset_reverse (a := idx.reverse) (sa := v.strides)
    (by rw [hw.len]; simpa using hl)
  rw [List.reverse_reverse] at this
  rw [this]
  congr 1; ring

/-- C06: transposing twice gives the array back. -/
theorem C06_transpose_involutive (mem : Int → α) (v : View) :
    (v.transpose.transpose.denote mem).Same (v.denote mem) := by
  refine ⟨by simp [View.denote, View.transpose, View.viewWith], fun idx _ => ?_⟩
  simp [View.denote, View.transpose, View.viewWith, View.addr]

/-- C06: `transpose(axes)` for a permutation of the axes: axis `i` of the result is axis
`axes[i]` of the source. -/
theorem C06_transpose_axes (mem : Int → α) (v : View) (hw : v.WF) (axes : List Nat)
    (hp : axes.Perm (List.range v.shape.length)) :
    ∃ v', v.transposeAxes axes = some v' ∧ v'.WF ∧
      (v'.denote mem).Same ((v.denote mem).transposeAxes axes) := by
  obtain ⟨hl, hlt, hnd, hmem⟩ := perm_range_facts hp
  refine ⟨v.viewWith 0 (axes.map fun a => v.shape.getD a 0) (axes.map fun a => v.strides.getD a 0), ?_, ?_, ?_⟩
  · unfold View.transposeAxes
    rw [if_neg (by simp [hl]), mapM_getElem? 0 hlt, mapM_getElem? 0 (by rw [hw.len]; exact hlt)]
    rfl
  · exact View.WF.viewWith (by simp)
  · refine ⟨rfl, fun idx hi => ?_⟩
    simp only [View.denote, View.viewWith] at hi
    have hil : idx.length = v.shape.length := by rw [hi.length_eq]; simp [hl]
    simp only [View.denote, Nd.transposeAxes, View.viewWith, View.addr]
    rw [byteOffset_perm hp hil hw.len]
    congr 1; ring

/-- C06, the same fact from the source side: the element at source index `idx` is found in
the result at the permuted coordinates. -/
theorem C06_transpose_axes_source (mem : Int → α) (v v' : View) (hw : v.WF) (axes : List Nat)
    (hp : axes.Perm (List.range v.shape.length)) (h : v.transposeAxes axes = some v')
    (idx : List Nat) (hi : InShape v.shape idx) :
    InShape v'.shape (axes.map fun a => idx.getD a 0) ∧
      (v'.denote mem).get (axes.map fun a => idx.getD a 0) = (v.denote mem).get idx := by
  obtain ⟨w, hw', hwf, hs⟩ := C06_transpose_axes mem v hw axes hp
  obtain ⟨hl, hlt, hnd, hmem⟩ := perm_range_facts hp
  rw [h, Option.some.injEq] at hw'
  subst hw'
  have hin : InShape v'.shape (axes.map fun a => idx.getD a 0) := by
    have : v'.shape = axes.map fun a => v.shape.getD a 0 := hs.1
    rw [this, inShape_iff_getD]
    rw [inShape_iff_getD] at hi
    refine ⟨by simp, fun k hk => ?_⟩
    have hk' : k < axes.length := by simpa using hk
    rw [List.getD_eq_getElem _ _ (by simpa using hk'), List.getD_eq_getElem _ _ (by simpa using hk')]
    simp only [List.getElem_map]
    exact hi.2 _ (hlt _ (List.getElem_mem hk'))
  refine ⟨hin, ?_⟩
  rw [hs.2 _ hin]
  simp only [Nd.transposeAxes]
  congr 1
  apply List.ext_getElem
  · simp [View.denote, hi.length_eq]
  · intro k h1 h2
    have hk : k < v.shape.length := by rw [hi.length_eq] at h2; exact h2
    have hk2 : axes.idxOf k < axes.length := List.idxOf_lt_length_iff.2 (hmem k hk)
    simp only [List.getElem_map, List.getElem_range]
    rw [List.getD_eq_getElem _ _ (by simpa using hk2)]
    simp only [List.getElem_map, List.getElem_idxOf]
    exact List.getD_eq_getElem _ _ h2

/-- `swapaxes` and `matrix_transpose` use a genuine permutation. -/
theorem C06_swap_order_perm (n a b : Nat) (ha : a < n) (hb : b < n) :
    (View.swapOrder n a b).Perm (List.range n) ∧
      ∀ k, k < n → (View.swapOrder n a b)[k]? = some (if k = a then b else if k = b then a else k) := by
  have hget : ∀ k, k < n →
      (View.swapOrder n a b)[k]? = some (if k = a then b else if k = b then a else k) := by
    intro k hk
    simp only [View.swapOrder, List.getElem?_set, List.length_set, List.length_range,
      List.getElem?_range hk, hb, ha, if_true]
    by_cases h1 : b = k
    · subst h1
      by_cases h2 : b = a
      · simp [h2]
      · simp [h2]
    · by_cases h2 : a = k
      · simp [h1, h2]
      · simp [h1, h2, Ne.symm h1, Ne.symm h2]
  refine ⟨?_, hget⟩
  have hlen : (View.swapOrder n a b).length = n := by simp [View.swapOrder]
  have hsub : ∀ x ∈ List.range n, x ∈ View.swapOrder n a b := by
    intro x hx
    rw [List.mem_range] at hx
    by_cases h1 : x = a
    · exact List.mem_of_getElem? (by rw [hget b hb, if_pos rfl]; subst h1; split <;> simp_all)
    · by_cases h2 : x = b
      · exact List.mem_of_getElem? (by rw [hget a ha, if_pos rfl, h2])
      · exact List.mem_of_getElem? (by rw [hget x hx, if_neg h1, if_neg h2])
  exact ((List.subperm_of_subset List.nodup_range hsub).perm_of_length_le (by simp [hlen])).symm

/-- C06: `swapaxes(a, b)` is the array with the two axes exchanged. -/
theorem C06_swapaxes (mem : Int → α) (v : View) (hw : v.WF) (a b : Nat)
    (ha : a < v.shape.length) (hb : b < v.shape.length) :
    ∃ v', v.swapaxes a b = some v' ∧
      (v'.denote mem).Same ((v.denote mem).transposeAxes
        ((List.range v.shape.length).map fun k => if k = a then b else if k = b then a else k)) := by
  obtain ⟨hp, hg⟩ := C06_swap_order_perm v.shape.length a b ha hb
  have e : View.swapOrder v.shape.length a b
      = (List.range v.shape.length).map fun k => if k = a then b else if k = b then a else k := by
    apply List.ext_getElem?
    intro k
    by_cases hk : k < v.shape.length
    · rw [hg k hk]; simp [List.getElem?_range hk]
    · rw [List.getElem?_eq_none (by simp [View.swapOrder]; omega), List.getElem?_eq_none (by simp; omega)]
  obtain ⟨v', h1, _, h2⟩ := C06_transpose_axes mem v hw _ hp
  refine ⟨v', ?_, ?_⟩
  · unfold View.swapaxes
    rw [if_neg (by omega)]; exact h1
  · rw [← e]; exact h2

example : (View.fresh [2, 3, 4] 8).swapaxes 0 2 = some ⟨0, [4, 3, 2], [8, 32, 96], 8, false, true⟩ := by
  decide

/-- NumPy's rule for `moveaxis(a, source, destination)`: the axis `source[i]` ends up at
position `destination[i]`, and the other axes keep their order in the remaining positions. -/
def IsMoveaxisOrder (n : Nat) (src dst order : List Nat) : Prop :=
  order.Perm (List.range n) ∧
  (∀ k, k < src.length → order[dst.getD k 0]? = src[k]?) ∧
  (order.filter fun x => !src.contains x) = (List.range n).filter fun x => !src.contains x

/-- C06, proved part: moving a single axis follows NumPy's rule. -/
theorem C06_moveaxis_single_partial (n s d : Nat) (hs : s < n) (hd : d < n) :
    IsMoveaxisOrder n [s] [d] (View.moveaxisOrder n [s] [d]) := by
  have hfl : ((List.range n).filter fun x => !([s] : List Nat).contains x) = (List.range n).erase s := by
    rw [List.Nodup.erase_eq_filter List.nodup_range]
    congr 1; funext x; rw [Bool.eq_iff_iff]; simp
  have hlen : ((List.range n).erase s).length = n - 1 := by
    rw [List.length_erase_of_mem (List.mem_range.2 hs)]; simp
  have hm : View.moveaxisOrder n [s] [d] = ((List.range n).erase s).insertIdx d s := by
    simp only [View.moveaxisOrder, List.zip_cons_cons, List.zip_nil_left, List.foldl_cons, List.foldl_nil]
    rw [hfl, hlen, Nat.min_eq_left (by omega)]
  have hns : s ∉ (List.range n).erase s := fun h => by
    exact ((List.Nodup.mem_erase_iff List.nodup_range).1 h).1 rfl
  rw [hm]
  refine ⟨?_, ?_, ?_⟩
  · exact (List.perm_insertIdx _ _ (by omega)).trans (List.perm_cons_erase (List.mem_range.2 hs)).symm
  · intro k hk
    have : k = 0 := by simpa using hk
    subst this
    simp only [List.getD_cons_zero, List.getElem?_cons_zero]
    rw [List.getElem?_insertIdx_self, if_pos (by omega)]
  · rw [hfl]
    have : ∀ (l : List Nat) (d : Nat), s ∉ l → d ≤ l.length →
        ((l.insertIdx d s).filter fun x => !([s] : List Nat).contains x) = l := by
      intro l
      induction l with
      | nil => intro d _ hd; have : d = 0 := by simpa using hd
               subst this; simp
      | cons a l ih =>
        intro d hns hd
        have hne : s ≠ a ∧ s ∉ l := by simpa using hns
        have hl : (l.filter fun x => !([s] : List Nat).contains x) = l := by
          rw [List.filter_eq_self]; intro x hx
          simp only [List.contains_cons, List.contains_nil, Bool.or_false, Bool.not_eq_true', beq_eq_false_iff_ne]
          rintro rfl; exact hne.2 hx
        have ha : (!([s] : List Nat).contains a) = true := by
          simp [Ne.symm hne.1]
        cases d with
        | zero =>
          rw [List.insertIdx_zero, List.filter_cons_of_neg (p := fun x => !([s] : List Nat).contains x) (by simp), List.filter_cons_of_pos (p := fun x => !([s] : List Nat).contains x) ha, hl]
        | succ d =>
          rw [List.insertIdx_succ_cons, List.filter_cons_of_pos (p := fun x => !([s] : List Nat).contains x) ha, ih d hne.2 (by simpa using hd)]
    exact this _ _ hns (by omega)

/-- C06 fails for several axes given in decreasing order of destination:
`moveaxis(a, [0, 1], [1, 0])` on three axes must be the order `[1, 0, 2]`; the code
produces `[1, 2, 0]`. -/
theorem C06_moveaxis_counterexample :
    View.moveaxisOrder 3 [0, 1] [1, 0] = [1, 2, 0] ∧
    ¬ IsMoveaxisOrder 3 [0, 1] [1, 0] (View.moveaxisOrder 3 [0, 1] [1, 0]) ∧
    IsMoveaxisOrder 3 [0, 1] [1, 0] [1, 0, 2] := by
  refine ⟨by decide, ?_, by decide, ?_, by decide⟩
  · rintro ⟨_, h, _⟩
    exact absurd (h 0 (by decide)) (by decide)
  · intro k hk
    have : k = 0 ∨ k = 1 := by simp at hk; omega
    rcases this with rfl | rfl <;> decide

/-- C06: `rollaxis(a, axis, start)` puts the axis just before the axis that was at position
`start` and keeps the order of the others. -/
theorem C06_rollaxis (n axis start : Nat) (ha : axis < n) (hs : start ≤ n) :
    ∃ order, View.rollaxisOrder n axis start = some order ∧
      order.Perm (List.range n) ∧
      order[if axis < start then start - 1 else start]? = some axis ∧
      order.erase axis = (List.range n).erase axis := by
  have he : (List.range n).eraseIdx axis = (List.range n).erase axis := by
    rw [List.erase_eq_eraseIdx_of_idxOf]
    have := List.Nodup.idxOf_getElem (List.nodup_range (n := n)) axis (by simpa using ha)
    simpa using this
  have hlen : ((List.range n).erase axis).length = n - 1 := by
    rw [List.length_erase_of_mem (List.mem_range.2 ha)]; simp
  have hpos : (if axis < start then start - 1 else start) ≤ n - 1 := by split <;> omega
  have hns : axis ∉ (List.range n).erase axis := fun h =>
    ((List.Nodup.mem_erase_iff List.nodup_range).1 h).1 rfl
  refine ⟨_, by unfold View.rollaxisOrder; rw [if_neg (by omega)], ?_, ?_, ?_⟩
  · rw [he]
    exact (List.perm_insertIdx _ _ (by omega)).trans (List.perm_cons_erase (List.mem_range.2 ha)).symm
  · rw [he, List.getElem?_insertIdx_self, if_pos (by omega)]
  · rw [he]
    have : ∀ (l : List Nat) (d : Nat), axis ∉ l → d ≤ l.length → (l.insertIdx d axis).erase axis = l := by
      intro l
      induction l with
      | nil => intro d _ hd; have : d = 0 := by simpa using hd
               subst this; simp
      | cons a l ih =>
        intro d hns hd
        have hne : axis ≠ a ∧ axis ∉ l := by simpa using hns
        cases d with
        | zero => simp
        | succ d =>
          rw [List.insertIdx_succ_cons, List.erase_cons_tail (by simpa using Ne.symm hne.1),
            ih d hne.2 (by simpa using hd)]
    exact this _ _ hns (by omega)

example : View.rollaxisOrder 4 3 1 = some [0, 3, 1, 2] := by decide

end Props
