import Verif.Lemmas.Broadcast
/-!
# C09, C10: broadcasting, squeeze and expand_dims
-/

namespace Props
open Spec Rumpy

/-! ### C09 broadcasting -/

/-- C09: the shape computed for two operands is exactly NumPy's broadcast shape, and an
error is raised exactly when there is none. -/
theorem C09_broadcast_shapes (a b r : List Nat) :
    broadcastShapes a b = some r ↔ IsBroadcast a b r := broadcastShapes_iff

/-- C09: broadcasting shapes is symmetric. -/
theorem C09_broadcast_comm (a b : List Nat) : broadcastShapes a b = broadcastShapes b a := by
  apply Option.ext
  intro r
  rw [broadcastShapes_iff, broadcastShapes_iff]
  simp only [IsBroadcast, DimBroadcast, Nat.max_comm]
  constructor <;> rintro ⟨h1, h2⟩ <;> refine ⟨h1, fun k hk => ?_⟩ <;>
    rcases h2 k hk with ⟨h, h'⟩ | ⟨h, h'⟩ | ⟨h, h'⟩ <;> omega

/-- C09: broadcasting shapes is associative (errors included). -/
theorem C09_broadcast_assoc (a b c : List Nat) :
    (broadcastShapes a b).bind (fun r => broadcastShapes r c)
      = (broadcastShapes b c).bind (fun r => broadcastShapes a r) := by
  apply Option.ext
  intro r
  simp only [Option.bind_eq_some_iff, broadcastShapes_iff]
  exact isBroadcast_assoc

/-- C09: a shape broadcast with itself, or with the empty shape, is unchanged. -/
theorem C09_broadcast_unit (a : List Nat) :
    broadcastShapes a a = some a ∧ broadcastShapes [] a = some a := by
  constructor
  · rw [broadcastShapes_iff]
    exact ⟨by simp, fun k _ => Or.inl ⟨rfl, rfl⟩⟩
  · rw [broadcastShapes_iff]
    refine ⟨by simp, fun k _ => Or.inr (Or.inl ⟨?_, rfl⟩)⟩
    simp [dimR]

/-- C09: the broadcast shape is the least shape to which both operands can be broadcast. -/
theorem C09_broadcast_least (a b r : List Nat) (h : broadcastShapes a b = some r) :
    BroadcastsTo a r ∧ BroadcastsTo b r ∧
      ∀ t, BroadcastsTo a t → BroadcastsTo b t → BroadcastsTo r t := by
  rw [broadcastShapes_iff] at h
  obtain ⟨hl, hd⟩ := h
  refine ⟨⟨by omega, fun k hk => ?_⟩, ⟨by omega, fun k hk => ?_⟩, ?_⟩
  · have := hd k (by omega)
    rcases this with ⟨h, h'⟩ | ⟨h, h'⟩ | ⟨h, h'⟩ <;> omega
  · have := hd k (by omega)
    rcases this with ⟨h, h'⟩ | ⟨h, h'⟩ | ⟨h, h'⟩ <;> omega
  · rintro t ⟨la, ha⟩ ⟨lb, hb⟩
    refine ⟨by omega, fun k hk => ?_⟩
    have h1 : dimR a k = 1 ∨ dimR a k = dimR t k := by
      by_cases hka : k < a.length
      · exact ha k hka
      · left; simp [dimR, hka]
    have h2 : dimR b k = 1 ∨ dimR b k = dimR t k := by
      by_cases hkb : k < b.length
      · exact hb k hkb
      · left; simp [dimR, hkb]
    rcases hd k hk with ⟨h, h'⟩ | ⟨h, h'⟩ | ⟨h, h'⟩ <;> omega

/-- C09: `broadcast_shapes(*shapes)` at the Python level is the plain fold, although it
treats an empty intermediate result specially. -/
theorem C09_broadcast_many (shapes : List (List Nat)) :
    broadcastShapesMany shapes = shapes.foldlM broadcastShapes [] := by
  unfold broadcastShapesMany
  congr 1
  funext r s
  cases r with
  | nil => simp [(C09_broadcast_unit s).2]
  | cons n r => rfl

/-- C09: `broadcast_to` succeeds exactly when NumPy allows it. -/
theorem C09_broadcast_to_succeeds_iff (v : View) (hw : v.WF) (t : List Nat) :
    (v.broadcastTo t).isSome ↔ BroadcastsTo v.shape t := broadcastTo_isSome hw

/-- C09: `broadcast_to` repeats the elements along new and length-1 axes. -/
theorem C09_broadcast_to (mem : Int → α) (v v' : View) (hw : v.WF) (t : List Nat)
    (h : v.broadcastTo t = some v') :
    v'.WF ∧ (v'.denote mem).Same ((v.denote mem).broadcast t) := by
  obtain ⟨h1, h2, h3, h4⟩ := broadcastTo_addr hw h
  exact ⟨h1, h2, fun idx hi => congrArg mem (h3 idx (by rw [← h2]; exact hi))⟩

example : (View.fresh [3, 1] 8).broadcastTo [2, 3, 4] = some ⟨0, [2, 3, 4], [0, 8, 0], 8, false, false⟩ := by
  decide
example : broadcastShapes [8, 1, 6, 1] [7, 1, 5] = some [8, 7, 6, 5] ∧
    broadcastShapes [2, 3] [4] = none ∧ broadcastShapes [1] [0] = some [0] := by
  simp [broadcastShapes, broadcastShapesRev]

/-! ### C10 squeeze and expand_dims -/

/-- C10: `expand_dims` inserts a length-1 axis and keeps every element. -/
theorem C10_expand_dims (mem : Int → α) (v : View) (hw : v.WF) (axis : Nat)
    (h : axis ≤ v.shape.length) :
    ∃ v', v.expandDims axis = some v' ∧ v'.WF ∧
      (v'.denote mem).Same ((v.denote mem).expandDims axis) := by
  refine ⟨v.viewWith 0 (v.shape.insertIdx axis 1) (v.strides.insertIdx axis (v.item : Int)), ?_, ?_, rfl, ?_⟩
  · unfold View.expandDims; rw [if_neg (by omega)]
  · exact View.WF.viewWith (by
      rw [List.length_insertIdx_of_le_length (by rw [hw.len]; exact h),
        List.length_insertIdx_of_le_length h, hw.len])
  · intro idx hi
    simp only [View.denote, View.viewWith, Nd.expandDims, View.addr] at hi ⊢
    rw [byteOffset_insertIdx hi h hw.len]
    congr 1; ring

/-- C10: an axis position past the end is refused. -/
theorem C10_expand_dims_error (v : View) (axis : Nat) (h : v.shape.length < axis) :
    v.expandDims axis = none := by
  unfold View.expandDims; rw [if_pos h]

/-- C10: removing a length-1 axis keeps every element. -/
theorem C10_squeeze_axis (mem : Int → α) (v : View) (hw : v.WF) (axis : Nat)
    (h : v.shape[axis]? = some 1) :
    (v.squeezeAxis axis).WF ∧
      ((v.squeezeAxis axis).denote mem).Same ((v.denote mem).dropAxis axis) := by
  unfold View.squeezeAxis
  rw [if_pos h]
  have hax : axis < v.shape.length := (List.getElem?_eq_some_iff.1 h).1
  refine ⟨View.WF.viewWith (by rw [List.length_eraseIdx, List.length_eraseIdx, hw.len]), rfl, ?_⟩
  intro idx hi
  simp only [View.denote, View.viewWith, Nd.dropAxis, View.addr] at hi ⊢
  have hl := hi.length_eq
  rw [List.length_eraseIdx, if_pos hax] at hl
  rw [byteOffset_insert_zero (by omega) (by rw [hw.len]; omega)]
  congr 1; ring

/-- C10: `squeeze(expand_dims(a, axis), axis)` is `a`. -/
theorem C10_expand_squeeze (mem : Int → α) (v v' : View) (axis : Nat)
    (h : v.expandDims axis = some v') :
    ((v'.squeezeAxis axis).denote mem).Same (v.denote mem) := by
  unfold View.expandDims at h
  split at h
  · simp at h
  · rename_i hle
    simp only [Option.some.injEq] at h
    subst h
    have h1 : (v.shape.insertIdx axis 1)[axis]? = some 1 := by
      rw [List.getElem?_insertIdx_self, if_pos (by omega)]
    unfold View.squeezeAxis
    simp only [View.viewWith, h1, if_true]
    refine ⟨by simp [View.denote, List.eraseIdx_insertIdx_self], fun idx _ => ?_⟩
    simp [View.denote, View.addr, List.eraseIdx_insertIdx_self]

/-- C10, proved part: `squeeze()` removes exactly the length-1 axes, for an array with some
axis of another length. -/
theorem C10_squeeze_partial (mem : Int → α) (v : View) (hw : v.WF) (h : ∃ n ∈ v.shape, n ≠ 1) :
    (v.squeeze.denote mem).Same ((v.denote mem).squeeze) := by
  have hne : (v.shape.filter (· ≠ 1)).isEmpty = false := by
    obtain ⟨n, hn, hn1⟩ := h
    rw [List.isEmpty_eq_false_iff]
    exact List.ne_nil_of_mem (List.mem_filter.2 ⟨hn, by simpa using hn1⟩)
  unfold View.squeeze
  simp only [hne, Bool.false_and, Bool.false_eq_true, if_false]
  refine ⟨rfl, fun idx hi => ?_⟩
  simp only [View.denote, View.viewWith, Nd.squeeze, View.addr] at hi ⊢
  rw [byteOffset_squeeze hw.len hi]
  congr 1; ring

/-- C10, the remaining case: an array whose axes all have length 1 keeps its one element, but
its shape becomes `(1,)` and not `()` as in NumPy. -/
theorem C10_squeeze_all_ones_counterexample :
    (View.fresh [1, 1] 8).squeeze.shape = [1] ∧
    (((View.fresh [1, 1] 8).denote id).squeeze).shape = [] := by
  decide

/-- C10: in that case the single element is still the right one. -/
theorem C10_squeeze_all_ones (mem : Int → α) (v : View) (h : ∀ n ∈ v.shape, n = 1) :
    v.squeeze.shape = [1] ∧
      (v.squeeze.denote mem).get [0] = (v.denote mem).get (List.replicate v.shape.length 0) := by
  have h1 : v.shape.filter (· ≠ 1) = [] := by
    rw [List.filter_eq_nil_iff]; intro n hn; simp [h n hn]
  have h2 : size v.shape = 1 := by
    have : ∀ s : List Nat, (∀ n ∈ s, n = 1) → size s = 1 := by
      intro s
      induction s with
      | nil => intro _; rfl
      | cons n s ih =>
        intro hs
        simp [size, hs n (by simp), ih (fun m hm => hs m (by simp [hm]))]
    exact this _ h
  unfold View.squeeze
  simp only [h1, sizeOf_eq, h2, List.isEmpty_nil, beq_self_eq_true, Bool.and_self, if_true]
  refine ⟨rfl, ?_⟩
  simp [View.denote, View.viewWith, View.addr, byteOffset, byteOffset_replicate_zero]

example : (View.fresh [2, 1, 3, 1] 8).squeeze.shape = [2, 3] := by decide

end Props
