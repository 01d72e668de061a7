import Verif.Lemmas.Index
import Verif.Props.InBounds
/-!
# C13: indexing follows Python and NumPy
-/

namespace Props
open Spec Rumpy

/-- C13: a valid integer index names element `i`, or element `n + i` when negative. -/
theorem C13_int_index (i : Int) (n : Nat) (h : -(n : Int) ≤ i) (h' : i < n) :
    0 ≤ normalizeIndex i n ∧ normalizeIndex i n < n ∧
      (0 ≤ i → normalizeIndex i n = i) ∧ (i < 0 → normalizeIndex i n = n + i) := by
  unfold normalizeIndex; split <;> omega

example : normalizeIndex (-2) 5 = 3 := rfl

/-- C13: full integer indexing reads exactly the named element when every index is in range,
and is an error (never a read outside the array) when some index is out of range. -/
theorem C13_scalar_access (v : View) (idx : List Int) (a : Int) :
    v.getScalar idx = some a ↔
      idx.length = v.shape.length ∧
      (∀ k, k < v.shape.length → -(v.shape.getD k 0 : Int) ≤ idx.getD k 0 ∧ idx.getD k 0 < v.shape.getD k 0) ∧
      a = v.addr (List.zipWith (fun i (n : Nat) => (if i < 0 then i + (n : Int) else i).toNat) idx v.shape) := by
  have key : ∀ (idx : List Int) (s : List Nat), idx.length = s.length →
      ((List.zipWith (fun (k : Int) (n : Nat) => decide (0 ≤ k ∧ k < n)) (List.zipWith normalizeIndex idx s) s).all id = true ↔
        ∀ k, k < s.length → -(s.getD k 0 : Int) ≤ idx.getD k 0 ∧ idx.getD k 0 < s.getD k 0) := by
    intro idx s
    induction s generalizing idx with
    | nil => intro _; simp
    | cons n s ih =>
      intro hl
      cases idx with
      | nil => simp at hl
      | cons i idx =>
        simp only [List.zipWith_cons_cons, List.all_cons, Bool.and_eq_true, id, decide_eq_true_eq]
        rw [ih idx (by simpa using hl)]
        constructor
        · rintro ⟨h1, h2⟩ k hk
          cases k with
          | zero =>
            simp only [List.getD_cons_zero]
            revert h1; unfold normalizeIndex; split <;> omega
          | succ k =>
            simp only [List.getD_cons_succ]
            exact h2 k (by simpa using hk)
        · intro h
          refine ⟨?_, fun k hk => ?_⟩
          · have := h 0 (by simp)
            simp only [List.getD_cons_zero] at this
            unfold normalizeIndex; split <;> omega
          · have := h (k + 1) (by simpa using hk)
            simpa only [List.getD_cons_succ] using this
  have e : ∀ (idx : List Int) (s : List Nat),
      (List.zipWith normalizeIndex idx s).map Int.toNat
        = List.zipWith (fun i (n : Nat) => (if i < 0 then i + (n : Int) else i).toNat) idx s := by
    intro idx s
    rw [List.map_zipWith]
    congr 1
    funext i n
    unfold normalizeIndex
    split <;> simp [Int.add_comm]
  unfold View.getScalar
  dsimp only
  rw [e]
  constructor
  · intro h
    split at h
    · rename_i hc
      simp only [Option.some.injEq] at h
      exact ⟨hc.1, (key _ _ hc.1).1 hc.2, h.symm⟩
    · simp at h
  · rintro ⟨h1, h2, rfl⟩
    rw [if_pos ⟨h1, (key _ _ h1).2 h2⟩]

example : (View.fresh [3, 4] 8).getScalar [-1, 2] = some 80 := by decide
example : (View.fresh [3, 4] 8).getScalar [3, 2] = none := by decide

/-- C13: a slice with positive step inside a tuple index selects exactly the positions of
Python's rule, for every axis length and all bounds, omitted, negative or out of range. -/
theorem C13_tuple_slice_forward (len : Nat) (a b : Option Int) (step : Int) (hs : 0 < step) :
    ∃ n, IsSliceLen (normalizeSlice a b step len).1 (normalizeSlice a b step len).2 step n ∧
      IsSliceLen (sliceStart len a step) (sliceStop len b step) step n ∧
      (0 < n → (normalizeSlice a b step len).1 = sliceStart len a step) := by
  have h1 := sliceLen_spec (start := (normalizeSlice a b step len).1)
    (stop := (normalizeSlice a b step len).2) (step := step) (by omega)
  have h2 := sliceLen_spec (start := sliceStart len a step) (stop := sliceStop len b step)
    (step := step) (by omega)
  obtain ⟨e, h3, _⟩ := normalizeSlice_spec (Or.inl hs) h1 h2
  exact ⟨_, h1, by rw [e]; exact h2, h3⟩

/-- C13, proved part for negative steps: the axis is not empty and an explicit start is on
the axis.  The rest is false: see the counterexamples. -/
theorem C13_tuple_slice_backward_partial (len : Nat) (hl : 0 < len) (a b : Option Int) (step : Int)
    (hs : step < 0) (ha : ∀ i, a = some i → -(len : Int) ≤ i ∧ i < len) :
    ∃ n, IsSliceLen (normalizeSlice a b step len).1 (normalizeSlice a b step len).2 step n ∧
      IsSliceLen (sliceStart len a step) (sliceStop len b step) step n ∧
      (0 < n → (normalizeSlice a b step len).1 = sliceStart len a step) := by
  have h1 := sliceLen_spec (start := (normalizeSlice a b step len).1)
    (stop := (normalizeSlice a b step len).2) (step := step) (by omega)
  have h2 := sliceLen_spec (start := sliceStart len a step) (stop := sliceStop len b step)
    (step := step) (by omega)
  obtain ⟨e, h3, _⟩ := normalizeSlice_spec (Or.inr ⟨hs, hl, ha⟩) h1 h2
  exact ⟨_, h1, by rw [e]; exact h2, h3⟩

example : normalizeSlice (some (-1)) none (-2) 5 = (4, -1) := rfl

/-- C13 fails for `a[10::-1, ...]` on an axis of length 3: the code starts one past the end
and yields four elements instead of three. -/
theorem C13_backward_start_counterexample :
    let p := normalizeSlice (some 10) none (-1) 3
    p = (3, -1) ∧ View.sliceLen p.1 p.2 (-1) = 4 ∧
    IsSliceLen (sliceStart 3 (some 10) (-1)) (sliceStop 3 none (-1)) (-1) 3 := by
  refine ⟨rfl, rfl, ?_⟩
  exact specLen_isSliceLen (start := 2) (stop := -1) (step := -1) (by decide)

/-- C13 fails for `a[::-1, ...]` on an empty axis: the code yields one element. -/
theorem C13_backward_empty_counterexample :
    let p := normalizeSlice none none (-1) 0
    View.sliceLen p.1 p.2 (-1) = 1 ∧
    IsSliceLen (sliceStart 0 none (-1)) (sliceStop 0 none (-1)) (-1) 0 := by
  refine ⟨rfl, ?_⟩
  exact specLen_isSliceLen (start := -1) (stop := -1) (step := -1) (by decide)

/-- C13: without an ellipsis the items are used as written. -/
theorem C13_no_ellipsis (items : List Ix) (ndim : Nat) :
    expandEllipsis (items.map pyOfIx) ndim = some (items.map ofIx) := by
  unfold expandEllipsis
  have h := countItems_ofIx items [] false 0
  rw [List.append_nil] at h
  rw [h]
  simp [countItems, expandItems_ofIx]

/-- C13: an ellipsis stands for exactly the axes not mentioned; naming more axes than there
are is an error. -/
theorem C13_ellipsis (pre post : List Ix) (ndim : Nat) :
    expandEllipsis (pre.map pyOfIx ++ .ellipsis :: post.map pyOfIx) ndim =
      if axesUsed pre + axesUsed post ≤ ndim then
        some (pre.map ofIx ++ List.replicate (ndim - (axesUsed pre + axesUsed post)) (.slice (some 0) none 1)
          ++ post.map ofIx)
      else none := by
  unfold expandEllipsis
  have h := countItems_ofIx post [] true (0 + axesUsed pre)
  rw [List.append_nil] at h
  rw [countItems_ofIx]
  simp only [countItems, Bool.false_eq_true, if_false]
  rw [h]
  simp only [countItems, Option.bind_eq_bind, Option.bind_some, if_true, Nat.zero_add]
  by_cases hle : axesUsed pre + axesUsed post ≤ ndim
  · rw [if_neg (by omega), if_pos hle, expandItems_append, expandItems_ofIx]
    simp [expandItems, expandItems_ofIx]
  · rw [if_pos (by omega), if_neg hle]

/-- C13: two ellipses are an error. -/
theorem C13_two_ellipses (pre mid : List Ix) (post : List PyItem) (ndim : Nat) :
    expandEllipsis (pre.map pyOfIx ++ .ellipsis :: (mid.map pyOfIx ++ .ellipsis :: post)) ndim = none := by
  unfold expandEllipsis
  rw [countItems_ofIx]
  simp only [countItems, Bool.false_eq_true, if_false]
  rw [countItems_ofIx]
  simp [countItems]

example : expandEllipsis [.int 0, .ellipsis, .slice none none (-1)] 4 =
    some [.int 0, .slice (some 0) none 1, .slice (some 0) none 1, .slice none none (-1)] := by decide

/-- C13, proved part: indexing with any tuple of integers, slices and `None` gives NumPy's
result, for every array whose strides are not negative, whenever NumPy accepts the index and
its negative-step slices start on their (non-empty) axis. -/
theorem C13_getitem_partial (mem : Int → α) (v : View) (hw : v.WF) (hn : ∀ x ∈ v.strides, 0 ≤ x)
    (items : List Ix) (hok : ItemsOk items v.shape) (r : Nd α)
    (hr : (v.denote mem).index items = some r) :
    ∃ w, v.getItem (items.map pyOfIx) = some w ∧ w.WF ∧ (w.denote mem).Same r := by
  unfold Nd.index at hr
  simp only [Option.bind_eq_bind, Option.bind_eq_some_iff, Option.some.injEq] at hr
  obtain ⟨⟨s', f⟩, hb, rfl⟩ := hr
  obtain ⟨w, news, st', g1, g2, g3, g4, g5, g6⟩ := getItemLoop_spec items v 0 [] [] v.shape [] v.strides
    s' f hw rfl rfl rfl rfl hn hok hb
  refine ⟨news.foldl View.squeezeAxis w, ?_, g2, ?_⟩
  · unfold View.getItem
    rw [C13_no_ellipsis]
    simp only [Option.bind_eq_bind, Option.bind_some, g1, List.append_nil]
  · refine ⟨by simpa [View.denote] using g4, fun idx hi => ?_⟩
    have hi' : InShape s' idx := by
      have : (View.denote mem (news.foldl View.squeezeAxis w)).shape = s' := by simpa [View.denote] using g4
      rwa [this] at hi
    have := (g6 idx hi').2
    simp only [View.denote, View.addr]
    rw [show (news.foldl View.squeezeAxis w).strides = st' by simpa using g5, this]

/-- C13: naming more axes than the array has is an error. -/
theorem C13_too_many_indices (v : View) (items : List Ix) (h : v.shape.length < axesUsed items) :
    v.getItem (items.map pyOfIx) = none := by
  unfold View.getItem
  rw [C13_no_ellipsis]
  simp only [Option.bind_eq_bind, Option.bind_some]
  rcases hg : getItemLoop (items.map ofIx) v 0 [] with _ | r
  · rfl
  · have := getItemLoop_length items v 0 [] r (by omega) hg
    omega

/-- C13, proved part, with an ellipsis: `a[pre, ..., post]` is NumPy's result with whole
axes in place of the ellipsis. -/
theorem C13_getitem_ellipsis_partial (mem : Int → α) (v : View) (hw : v.WF) (hn : ∀ x ∈ v.strides, 0 ≤ x)
    (pre post : List Ix) (hfit : axesUsed pre + axesUsed post ≤ v.shape.length)
    (hok : ItemsOk (pre ++ List.replicate (v.shape.length - (axesUsed pre + axesUsed post))
      (Ix.slice (some 0) none 1) ++ post) v.shape) (r : Nd α)
    (hr : (v.denote mem).index (pre ++ List.replicate (v.shape.length - (axesUsed pre + axesUsed post))
      (Ix.slice (some 0) none 1) ++ post) = some r) :
    ∃ w, v.getItem (pre.map pyOfIx ++ .ellipsis :: post.map pyOfIx) = some w ∧ w.WF ∧
      (w.denote mem).Same r := by
  obtain ⟨w, h1, h2⟩ := C13_getitem_partial mem v hw hn _ hok r hr
  refine ⟨w, ?_, h2⟩
  rw [← h1]
  unfold View.getItem
  rw [C13_no_ellipsis, C13_ellipsis, if_pos hfit]
  simp [ofIx, List.map_append, List.map_replicate]

/-- A concrete index that meets the hypotheses: `a[-1, None, 1:4:2]` on a 3x5 array. -/
example : ItemsOk [.int (-1), .newAxis, .slice (some 1) (some 4) 2] (View.fresh [3, 5] 8).shape ∧
    (((View.fresh [3, 5] 8).denote id).index [.int (-1), .newAxis, .slice (some 1) (some 4) 2]).isSome ∧
    (View.fresh [3, 5] 8).getItem [.int (-1), .newAxis, .slice (some 1) (some 4) 2]
      = some ⟨88, [1, 2], [8, 16], 8, false, false⟩ :=
  ⟨⟨Or.inl (by decide), trivial⟩, by decide, by decide⟩

/-- C13, proved part: one integer index `a[i]` on the first axis. -/
theorem C13_getint_partial {α : Type} (mem : Int → α) (v : View) (hw : v.WF) (n : Nat) (s : List Nat)
    (hs : v.shape = n :: s) (hn : ∀ x ∈ v.strides, 0 ≤ x) (i : Int) (h : -(n : Int) ≤ i) (h' : i < n) :
    ∃ w, v.getInt i = some w ∧ w.WF ∧ (w.denote mem).shape = s ∧
      ∀ idx, InShape s idx →
        (w.denote mem).get idx = (v.denote mem).get ((if i < 0 then n + i else i).toNat :: idx) := by
  obtain ⟨w, h1, h2, h3, h4⟩ := C13_getitem_partial mem v hw hn [.int i] (by rw [hs]; trivial)
    ⟨s, fun idx => mem (v.addr ((if i < 0 then i + (n : Int) else i).toNat :: idx))⟩ (by
      simp [Nd.index, basicIndex, hs, h, h', View.denote])
  refine ⟨w, ?_, h2, h3, fun idx hi => ?_⟩
  · rw [← h1]
    simp only [View.getInt, View.getItem, List.map_cons, List.map_nil, pyOfIx]
    have : expandEllipsis [.int i] v.shape.length = some [.int i] := C13_no_ellipsis [.int i] _
    rw [this]
    simp only [Option.bind_eq_bind, Option.bind_some, getItemLoop]
    cases v.shape[0]? with
    | none => rfl
    | some len =>
      simp only [Option.bind_some]
      cases v.sliceAxis 0 (normalizeIndex i len) (normalizeIndex i len + 1) 1 <;> rfl
  · rw [h4 idx (by rw [h3]; exact hi)]
    simp only [View.denote, Int.add_comm]

example : (View.fresh [3, 5] 8).getInt (-1) = some ⟨80, [5], [8], 8, true, true⟩ := by decide

/-- C13 fails for an out-of-range integer index: `a[10]` on a length-3 array of bytes is not
an error; it gives a view of byte 10 of a 3-byte buffer. -/
theorem C13_getint_out_of_range_counterexample :
    ∃ w, (View.fresh [3] 1).getInt 10 = some w ∧ w.shape = [] ∧ w.addr [] = 10 ∧ ¬ InBuf 3 w := by
  refine ⟨⟨10, [], [], 1, true, true⟩, by decide, rfl, by decide, fun h => ?_⟩
  exact absurd (h [] (by decide)).2 (by decide)

/-- C13 fails for an out-of-range integer inside a tuple with a slice. -/
theorem C13_tuple_out_of_range_counterexample :
    ∃ w, (View.fresh [2, 3] 1).getItem [.int 7, .slice none none 1] = some w ∧ w.addr [0] = 21 ∧
      ((View.fresh [2, 3] 1).denote id).index [.int 7, .slice none none 1] = none :=
  ⟨⟨21, [3], [1], 1, true, true⟩, by decide, by decide, by
    simp [Nd.index, basicIndex, View.denote, View.fresh]⟩

end Props
