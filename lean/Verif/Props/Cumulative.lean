import Verif.Lemmas.Cumulative
import Verif.Lemmas.Float
import Mathlib.Data.BitVec
import Mathlib.Algebra.Group.Basic
import Mathlib.Tactic.Abel
/-!
# C20: cumulative sums and products, differences
-/

namespace Props
open Spec Rumpy

/-! ### Running reductions -/

/-- C20: without an axis, entry `k` of `cumsum`/`cumprod` combines the first `k + 1` elements in
row-major order, from the left, for every layout and every operation. -/
theorem C20_cumulative_flat (op : α → α → α) (e : α) (mem : Int → α) (v : View) (hw : v.WF) (zero : α) :
    let r := cumFlat op e mem v zero
    r.shape = [size v.shape] ∧ r.data = running op e (v.denote mem).toList :=
  cumFlat_data op e mem hw zero

/-- C20: along an axis, each entry combines the elements of its lane up to itself, for every layout
(both code paths) and every operation. -/
theorem C20_cumulative_axis (op : α → α → α) (e : α) (mem : Int → α) (v : View) (hw : v.WF) (hitem : 0 < v.item)
    (axis : Nat) (hax : axis < v.shape.length) (zero : α) :
    (cumAxis op e mem v axis zero).Is ((v.denote mem).running op e axis) :=
  cumAxis_data op e mem hw hitem hax zero

/-- C20: the same for the dtypes without a typed path and for the NaN-skipping variants (whose
`op` leaves the accumulator alone at a NaN). -/
theorem C20_cumulative_generic (op : α → α → α) (e : α) (mem : Int → α) (v : View)
    (axis : Nat) (hax : axis < v.shape.length) (zero : α) :
    (cumulativeOp op e mem v axis zero).Is ((v.denote mem).running op e axis) :=
  cumulativeOp_data op e mem v hax zero

/-- C20: the entries of an integer `cumsum` are partial sums of the element values modulo `2^w`. -/
theorem C20_cumsum_values (mem : Int → BitVec w) (v : View) (hw : v.WF) (k : Nat) (hk : k < size v.shape) :
    (cumFlat sumCombine 0#w mem v 0#w).data[k]? =
      some (BitVec.ofInt w (((v.denote mem).toList.take (k + 1)).map BitVec.toInt).sum) := by
  have hs : ∀ (l : List (BitVec w)) (a : BitVec w),
      l.foldl sumCombine a = a + BitVec.ofInt w (l.map BitVec.toInt).sum := by
    intro l
    induction l with
    | nil => simp
    | cons x l ih =>
      intro a
      rw [List.foldl_cons, ih]
      simp [sumCombine, BitVec.ofInt_add, BitVec.add_assoc]
  rw [(C20_cumulative_flat sumCombine 0#w mem v hw 0#w).2]
  unfold running
  have hl : (v.denote mem).toList.length = size v.shape := Nd.length_toList _
  rw [List.getElem?_map, hl, List.getElem?_range hk, Option.map_some, hs]
  simp

example : cumFlat sumCombine 0#8 (fun p => BitVec.ofInt 8 (100 * p)) ⟨4, [3], [-2], 1, false, false⟩ 0#8 =
    ⟨[3], [144#8, 88#8, 88#8]⟩ := by decide

/-- Both paths along an axis: last axis of a contiguous array, and the first axis of a transposed view. -/
example : cumAxis (· + ·) 0 (fun p => p + 1) (View.fresh [2, 3] 1) 1 0 = ⟨[2, 3], [1, 3, 6, 4, 9, 15]⟩ ∧
    cumAxis (· + ·) 0 (fun p => p + 1) (View.fresh [2, 3] 1) 0 0 = ⟨[2, 3], [1, 2, 3, 5, 7, 9]⟩ ∧
    cumAxis (· + ·) 0 (fun p => p + 1) ⟨0, [3, 2], [1, 3], 1, false, true⟩ 1 0 = ⟨[3, 2], [1, 5, 2, 7, 3, 9]⟩ := by
  decide

/-! ### Differences -/

/-- C20 (partial): `diff` of order `n` is the `n`-fold difference of neighbours along the axis and
has `n` fewer entries (none when `n` exceeds the length), for every layout.  `subF` is the
subtraction through `f64` that all but 1-d contiguous arrays use; for floats it is `sub`.  Missing:
the integer dtypes on that path (`C20_diff_unsigned_counterexample`), and orders above one when
another axis is empty (`C20_diff_shape_counterexample`). -/
theorem C20_diff_partial (sub subF : α → α → α) (zero : α) (n : Nat) (mem : Int → α) (v : View) (hw : v.WF)
    (hitem : 0 < v.item) (axis : Nat) (hax : axis < v.shape.length)
    (hne : size (v.shape.eraseIdx axis) ≠ 0 ∨ n ≤ 1)
    (hF : (v.shape.length = 1 ∧ v.cFlag = true) ∨ ∀ x y, subF x y = sub x y) :
    (diff sub subF zero n mem v axis).Is ((v.denote mem).differencesN sub n axis) ∧
    (diff sub subF zero n mem v axis).shape = v.shape.set axis (v.shape.getD axis 0 - n) := by
  have h := diff_eq sub subF zero n mem v hw hitem hax hne hF
  exact ⟨h, h.1.trans (differencesN_shape sub n (v.denote mem) hax)⟩

/-- C20 (partial): first differences of a 64-bit integer array of any layout are exact when the
values are at most `2^52` in size. Missing: larger values, which are rounded. -/
theorem C20_diff_i64_partial (mem : Int → Int) (v : View) (hw : v.WF) (axis : Nat)
    (hax : axis < v.shape.length) (hb : ∀ p, (mem p).natAbs ≤ 2 ^ 52) :
    (diff (· - ·) (subViaF64 (-2 ^ 63) (2 ^ 63 - 1)) 0 1 mem v axis).Is ((v.denote mem).differences (· - ·) axis) := by
  unfold diff
  dsimp only
  by_cases hle : v.shape.getD axis 0 ≤ 0 + 1
  · rw [if_pos hle]
    have hs : ((v.denote mem).differences (· - ·) axis).shape = v.shape.set axis 0 := by
      simp only [Nd.differences, View.denote]
      congr 1; omega
    refine ⟨hs.symm, ?_⟩
    unfold Nd.toList
    rw [hs, size_zero_of_indices (by rw [size_set_getD hax, Nat.mul_zero]), List.map_nil]
  · rw [if_neg hle]
    have hstep : (diffStep (· - ·) (subViaF64 (-2 ^ 63) (2 ^ 63 - 1)) mem v axis 0).Is
        ((v.denote mem).differences (· - ·) axis) := by
      apply diffStep_data _ _ mem hw hax (by omega)
      right
      intro idx _
      unfold laneDiff
      simp only [View.denote]
      generalize h1 : mem (v.addr (idx.set axis (idx.getD axis 0 + 1))) = x
      generalize h2 : mem (v.addr idx) = y
      have hx : x.natAbs ≤ 2 ^ 52 := h1 ▸ hb _
      have hy : y.natAbs ≤ 2 ^ 52 := h2 ▸ hb _
      unfold subViaF64 f64ToInt
      rw [intToF64_exact (x := x) (by omega), intToF64_exact (x := y) (by omega), intToF64_exact (x := x - y) (by omega)]
      have : (2 : Nat) ^ 52 = 4503599627370496 := by norm_num
      have : (2 : Int) ^ 63 = 9223372036854775808 := by norm_num
      omega
    split
    · exact hstep
    · exact hstep

/-- C20: differences of a uint8 array depend on the layout: in the 1-d contiguous array `[3, 1]`
the difference is `254` (`-2` modulo 256), in the 2-d array `[[3, 1]]` it is `0`. -/
theorem C20_diff_unsigned_counterexample :
    let sub : Int → Int → Int := fun x y => (x - y) % 256
    let mem : Int → Int := fun p => if p = 0 then 3 else 1
    (diff sub (subViaF64 0 255) 0 1 mem (View.fresh [2] 1) 0).data = [254] ∧
    (diff sub (subViaF64 0 255) 0 1 mem (View.fresh [1, 2] 1) 1).data = [0] := by
  decide

/-- C20: values beyond `2^53` are rounded in 2-d arrays: `[[0, 2^53 + 1]]` has difference `2^53`. -/
theorem C20_diff_i64_counterexample :
    (diff (· - ·) (subViaF64 (-2 ^ 63) (2 ^ 63 - 1)) 0 1 (fun p => if p = 0 then 0 else 2 ^ 53 + 1)
      (View.fresh [1, 2] 1) 1).data = [2 ^ 53] := by
  decide

/-- C20: second differences of an array of shape `(0, 5)` have shape `(0, 4)`, not `(0, 3)`. -/
theorem C20_diff_shape_counterexample :
    (diff (· - ·) (· - ·) 0 2 (fun p => p) (View.fresh [0, 5] 1) 1).shape = [0, 4] ∧
      (((View.fresh [0, 5] 1).denote fun p => p).differencesN (· - ·) 2 1).shape = [0, 3] := by
  decide

example : diff (· - ·) (· - ·) 0 2 (fun p => p * p) (View.fresh [2, 3] 1) 1 = ⟨[2, 1], [2, 2]⟩ ∧
    diff (· - ·) (· - ·) 0 7 (fun p => p * p) (View.fresh [2, 3] 1) 1 = ⟨[2, 0], []⟩ := by decide

/-! ### Differences undo running sums -/

theorem running_succ (op : α → α → α) (e : α) (a : Nd α) (axis : Nat) (idx : List Nat) (h : axis < idx.length) :
    (a.running op e axis).get (idx.set axis (idx.getD axis 0 + 1)) =
      op ((a.running op e axis).get idx) (a.get (idx.set axis (idx.getD axis 0 + 1))) := by
  unfold Nd.running
  dsimp only
  rw [getD_set_self h, List.range_succ, List.map_append, List.foldl_append]
  simp only [List.map_cons, List.map_nil, List.foldl_cons, List.foldl_nil, List.set_set]

/-- C20: `diff(cumsum(a, axis), axis=axis)` is `a` without the first entry of each lane, in any
commutative group (the integers modulo `2^w` are one), for every layout of `a`. -/
theorem C20_diff_cumsum [AddCommGroup G] (subF : G → G → G) (mem : Int → G) (v : View) (hw : v.WF) (hitem : 0 < v.item)
    (axis : Nat) (hax : axis < v.shape.length) (hF : v.shape.length = 1 ∨ ∀ x y, subF x y = x - y) :
    let r := cumAxis (· + ·) 0 mem v axis 0
    (diff (· - ·) subF 0 1 (r.mem v.item 0) (r.view v.item) axis).Is ((v.denote mem).tailAxis axis) := by
  intro r
  have hr := C20_cumulative_axis (· + ·) (0 : G) mem v hw hitem axis hax 0
  have hrs : r.shape = v.shape := hr.1
  have h1 := diff_eq (axis := axis) (· - ·) subF 0 1 (r.mem v.item 0) (r.view v.item) (View.WF.fresh _ _) hitem
    (by show axis < r.shape.length; rw [hrs]; exact hax) (Or.inr le_rfl)
    (hF.imp (fun h => ⟨by show r.shape.length = 1; rw [hrs]; exact h, rfl⟩) id)
  refine h1.congr ?_
  have hsame := Nd.Same.differences (hr.denote hitem 0) (· - ·) (axis := axis) (by
    show axis < r.shape.length; rw [hrs]; exact hax)
  refine ⟨hsame.1, fun idx hi => (hsame.2 idx hi).trans ?_⟩
  have hi : InShape (v.shape.set axis (v.shape.getD axis 0 - 1)) idx := by
    have := hsame.1 ▸ hi
    exact this
  have hl := hi.length_eq
  rw [List.length_set] at hl
  simp only [Nd.differences, Nd.tailAxis]
  rw [running_succ _ _ _ _ _ (by omega)]
  abel

/-- C20: `cumulative_sum(..., include_initial=True)` puts the identity in front of each lane of the
running sums. -/
theorem C20_include_initial (op : α → α → α) (e : α) (mem : Int → α) (v : View) (hw : v.WF) (hitem : 0 < v.item)
    (axis : Nat) (hax : axis < v.shape.length) (zero : α) :
    (prependIdentity (cumAxis op e mem v axis zero) e axis zero).Is (((v.denote mem).running op e axis).consAxis e axis) := by
  have hr := C20_cumulative_axis op e mem v hw hitem axis hax zero
  exact prependIdentity_eq hr e (by rw [hr.1]; exact hax) zero

/-- C20: `cumulative_sum` with the initial entry followed by `diff` gives back the input. -/
theorem C20_round_trip [AddCommGroup G] (subF : G → G → G) (mem : Int → G) (v : View) (hw : v.WF) (hitem : 0 < v.item)
    (axis : Nat) (hax : axis < v.shape.length) (hF : v.shape.length = 1 ∨ ∀ x y, subF x y = x - y) :
    let r := prependIdentity (cumAxis (· + ·) 0 mem v axis 0) 0 axis 0
    (diff (· - ·) subF 0 1 (r.mem v.item 0) (r.view v.item) axis).Is (v.denote mem) := by
  intro r
  have hr := C20_include_initial (· + ·) (0 : G) mem v hw hitem axis hax 0
  have hrs : r.shape = v.shape.set axis (v.shape.getD axis 0 + 1) := hr.1
  have hax' : axis < r.shape.length := by rw [hrs]; simpa using hax
  have h1 := diff_eq (axis := axis) (· - ·) subF 0 1 (r.mem v.item 0) (r.view v.item) (View.WF.fresh _ _) hitem
    hax' (Or.inr le_rfl) (hF.imp (fun h => ⟨by show r.shape.length = 1; rw [hrs]; simpa using h, rfl⟩) id)
  refine h1.congr ?_
  have hsame := Nd.Same.differences (hr.denote hitem 0) (· - ·) (axis := axis) hax'
  have hshape : (r.shape.set axis (r.shape.getD axis 0 - 1)) = v.shape := by
    rw [hrs, getD_set_self hax, List.set_set, Nat.add_sub_cancel, set_getD_self _ _ hax]
  refine ⟨hshape, fun idx hi => (hsame.2 idx hi).trans ?_⟩
  have hi : InShape v.shape idx := by rw [← hshape]; exact hi
  have hl := hi.length_eq
  have hk := inShape_getD hi hax
  simp only [Nd.differences, Nd.consAxis]
  rw [getD_set_self (by omega), if_neg (by omega), List.set_set, Nat.add_sub_cancel, set_getD_self _ _ (by omega)]
  by_cases h0 : idx.getD axis 0 = 0
  · rw [if_pos h0]
    unfold Nd.running
    dsimp only
    rw [h0]
    have : idx.set axis 0 = idx := by
      conv_rhs => rw [← set_getD_self idx axis (by omega), h0]
    simp [this]
  · rw [if_neg h0]
    obtain ⟨m, hm⟩ := Nat.exists_eq_succ_of_ne_zero h0
    have hs := running_succ (· + ·) (0 : G) (v.denote mem) axis (idx.set axis m) (by simpa using (by omega : axis < idx.length))
    rw [getD_set_self (by omega), List.set_set] at hs
    have e : idx.set axis (m + 1) = idx := by
      have := set_getD_self idx axis (by omega)
      rw [hm] at this; exact this
    rw [e] at hs
    rw [hm, Nat.succ_sub_one, hs]
    abel

/-- The hypotheses of the round trips hold for int8 (values modulo 256) and a strided view. -/
example :
    let mem : Int → BitVec 8 := fun p => BitVec.ofInt 8 (50 * p)
    let v : View := ⟨4, [3], [-2], 1, false, false⟩
    let r := prependIdentity (cumAxis (· + ·) 0 mem v 0 0) 0 0 0
    v.WF ∧ r = ⟨[4], [0#8, 200#8, 44#8, 44#8]⟩ ∧
      diff (· - ·) (· - ·) 0 1 (r.mem 1 0) (r.view 1) 0 = ⟨[3], [200#8, 100#8, 0#8]⟩ := by
  refine ⟨⟨by decide, by decide, by decide⟩, by decide, by decide⟩

/-- C20 (partial): the stores that write the initial entries stay inside the result when no other
axis is empty. -/
theorem C20_include_initial_in_bounds_partial (c : Arr α) (nd : Nd α) (hc : c.Is nd) (e : α) (axis : Nat)
    (hax : axis < c.shape.length) (hne : size (c.shape.eraseIdx axis) ≠ 0) (zero : α) :
    ∀ w ∈ prependStores c e axis zero, w.1 < size (c.shape.set axis (c.shape.getD axis 0 + 1)) := by
  rw [prependStores_eq hc e hax hne]
  intro w hw
  obtain ⟨idx, hi, hw⟩ := List.mem_flatMap.1 hw
  obtain ⟨j, hj, rfl⟩ := List.mem_map.1 hw
  apply rank_lt
  apply inShape_insertIdx (by simpa using hax)
  · rw [List.eraseIdx_set_eq]; exact mem_indices.1 hi
  · rw [getD_set_self hax]; exact List.mem_range.1 hj

/-- C20: `cumulative_sum(zeros((2, 0)), axis=0, include_initial=True)` stores an element at position
0 of an empty result. -/
theorem C20_include_initial_counterexample :
    prependStores (⟨[2, 0], []⟩ : Arr Int) 7 0 0 = [(0, 7), (0, 0), (0, 0)] ∧ size [3, 0] = 0 := by
  decide

end Props
