import Verif.Lemmas.Select
import Verif.Props.Views
/-!
# C14: selection by masks and by index arrays
-/

namespace Props
open Spec Rumpy

/-! ### Boolean masks -/

/-- C14: `a[mask]` is the vector of the elements where the mask is true, in row-major order. -/
theorem C14_mask (zero : α) (a : Nd α) (mask : Nd Bool) (h : mask.shape = a.shape) :
    selectByMask zero a mask = some
      ⟨[(mask.trueAt id).length], (mask.trueAt id).map a.get⟩ := by
  unfold selectByMask
  rw [if_neg (by simp [h])]
  simp only [sizeOf_eq, odometerAll_eq, count_foldl, Nat.zero_add, h]
  have ht : mask.trueAt id = (indices a.shape).filter mask.get := by simp [Nd.trueAt, h]
  by_cases h0 : size a.shape = 0
  · have : indices a.shape = [] := List.length_eq_zero_iff.1 (by rw [length_indices, h0])
    simp [h0, ht, this]
  · rw [if_neg h0]
    by_cases hc : ((indices a.shape).filter mask.get).length = 0
    · have : (indices a.shape).filter mask.get = [] := List.length_eq_zero_iff.1 hc
      simp [ht, this]
    · rw [if_neg hc, ht, writes_packLoop mask.get a.get _ _ (by simp)]

example : selectByMask 0 (⟨[2, 2], fun i => 10 * i.getD 0 0 + i.getD 1 0⟩ : Nd Nat)
    ⟨[2, 2], fun i => i.getD 0 0 != i.getD 1 0⟩ = some ⟨[2], [1, 10]⟩ := by decide

/-- C14: a mask of another shape is rejected. -/
theorem C14_mask_shape_error (zero : α) (a : Nd α) (mask : Nd Bool) (h : mask.shape ≠ a.shape) :
    selectByMask zero a mask = none := by
  unfold selectByMask
  rw [if_pos (fun e => h e.symm)]

/-! ### `a[idx]` with an integer array -/

/-- C14: `a[idx]` fails exactly when `a` has no axis or some index is out of range. -/
theorem C14_indices_succeeds_iff (zero : α) (a : Nd α) (idx : Nd Int) :
    (selectByIndices zero a idx).isSome ↔
      a.shape ≠ [] ∧ ∀ i, InShape idx.shape i → (pyIndex (a.shape.headD 0) (idx.get i)).isSome := by
  unfold selectByIndices
  rcases hs : a.shape with _ | ⟨n, s⟩
  · simp
  · simp only [sizeOf_eq, odometerAll_eq, List.headD_cons, ne_eq, reduceCtorEq, not_false_eq_true, true_and]
    by_cases h0 : size idx.shape = 0
    · have : ∀ i, ¬ InShape idx.shape i := fun i hi => by have := rank_lt hi; omega
      simp [h0, this]
    · rw [if_neg h0]
      have h := selectRows_none a n s (selectSliceSize s) ((indices idx.shape).map idx.get) 0
      have h2 : (∀ x ∈ (indices idx.shape).map idx.get, (pyIndex n x).isSome) ↔
          ∀ i, InShape idx.shape i → (pyIndex n (idx.get i)).isSome := by
        simp [mem_indices]
      rw [← h2, ← h]
      cases selectRows a n s (selectSliceSize s) ((indices idx.shape).map idx.get) 0 <;> simp

/-- C14, partial (`0 < size` of a row; the result is one-dimensional in the index part):
the elements of `a[idx]`, in order, are the rows named by the indices. -/
theorem C14_indices_partial (zero : α) (a : Nd α) (idx : Nd Int) {n : Nat} {s : List Nat}
    (hs : a.shape = n :: s) (hp : 0 < size s) (K : List Nat → Nat)
    (hk : ∀ i, InShape idx.shape i → pyIndex n (idx.get i) = some (K i)) :
    selectByIndices zero a idx = some
      ⟨size idx.shape :: s, (a.gather ⟨idx.shape, K⟩).toList⟩ := by
  have hg : (a.gather ⟨idx.shape, K⟩).toList =
      (indices idx.shape).flatMap fun i => (indices s).map fun t => a.get (K i :: t) := by
    unfold Nd.toList Nd.gather
    simp only [hs, List.tail_cons]
    rw [indices_append, List.map_flatMap]
    apply List.flatMap_congr
    intro i hi
    have hl := (mem_indices.1 hi).length_eq
    rw [List.map_map]
    apply List.map_congr_left
    intro t _
    simp [← hl]
  unfold selectByIndices
  rw [hs]
  simp only [sizeOf_eq, odometerAll_eq]
  by_cases h0 : size idx.shape = 0
  · have he : indices idx.shape = [] := List.length_eq_zero_iff.1 (by rw [length_indices, h0])
    rw [if_pos h0, hg, he]
    simp [size, h0]
  · rw [if_neg h0, selectRows_eq a n s hp]
    have hm : ((indices idx.shape).map idx.get).mapM (fun x => pyIndex n x) = some ((indices idx.shape).map K) := by
      rw [mapM_some_iff, List.forall₂_map_left_iff, List.forall₂_map_right_iff]
      apply List.forall₂_same.2
      intro i hi
      exact hk i (mem_indices.1 hi)
    rw [hm]
    simp only [Option.map_some, Option.bind_eq_bind, Option.bind_some, Option.some.injEq, Arr.mk.injEq, true_and]
    rw [flat_rows _ s fun k t => a.get (k :: t)]
    have hlen : ((indices idx.shape).map K).length = size idx.shape := by rw [List.length_map, length_indices]
    rw [hlen, writes_indices (size idx.shape :: s) (fun idx' => a.get
      (((indices idx.shape).map K).getD (idx'.headD 0) 0 :: idx'.tail)) _ (by simp)]
    rw [hg]
    simp only [indices, List.map_flatMap, List.map_map, Function.comp_def, List.headD_cons, List.tail_cons]
    have hr : (List.range (size idx.shape)) = (indices idx.shape).map (rank idx.shape) := (map_rank_indices _).symm
    rw [hr, List.flatMap_map]
    apply List.flatMap_congr
    intro i hi
    have h4 := indices_getElem?_rank (mem_indices.1 hi)
    simp [List.getD, List.getElem?_map, h4]

/-- C14: for a one-dimensional index array this is exactly `a[idx]`. -/
theorem C14_indices_1d (zero : α) (a : Nd α) (idx : Nd Int) {n m : Nat} {s : List Nat}
    (hs : a.shape = n :: s) (hp : 0 < size s) (hi : idx.shape = [m]) (K : List Nat → Nat)
    (hk : ∀ i, InShape idx.shape i → pyIndex n (idx.get i) = some (K i)) :
    ∃ r, selectByIndices zero a idx = some r ∧ r.Is (a.gather ⟨idx.shape, K⟩) := by
  refine ⟨_, C14_indices_partial zero a idx hs hp K hk, ?_, rfl⟩
  simp [Nd.gather, hi, hs, size]

example : selectByIndices 0 (⟨[3, 2], fun i => 10 * i.getD 0 0 + i.getD 1 0⟩ : Nd Nat)
    ⟨[2], fun i => if i = [0] then -1 else 0⟩ = some ⟨[2, 2], [20, 21, 0, 1]⟩ := by decide

/-- C14 fails for a two-dimensional index array: NumPy gives the result the shape
`idx.shape + a.shape[1:]`, the code flattens the index axes. -/
theorem C14_indices_2d_counterexample :
    ∃ (a : Nd Nat) (idx : Nd Int) (r : Arr Nat), selectByIndices 0 a idx = some r ∧
      r.shape = [4] ∧ (a.gather ⟨idx.shape, fun _ => 0⟩).shape = [2, 2] :=
  ⟨⟨[3], fun i => i.getD 0 0⟩, ⟨[2, 2], fun _ => 0⟩, ⟨[4], [0, 0, 0, 0]⟩, by decide, rfl, rfl⟩

/-- C14 fails (memory safety) when a row is empty: the code still stores one element per index
although the result has no element, because `slice_size` is at least 1. -/
theorem C14_indices_empty_row_counterexample :
    ∃ (a : Nd Nat) (ws : List (Nat × Nat)), a.shape = [2, 0] ∧
      selectRows a 2 [0] (selectSliceSize [0]) [0, 1] 0 = some ws ∧
      ws.map (·.1) = [0, 1] ∧ size [2, 0] = 0 :=
  ⟨⟨[2, 0], fun _ => 7⟩, [(0, 7), (1, 7)], rfl, by decide, rfl, rfl⟩

/-! ### `take` -/

/-- C14: `take(a, idx, axis)` fails exactly when the axis does not exist or some index is out of
range. -/
theorem C14_take_succeeds_iff (zero : α) (mem : Int → α) (v : View) (idx : List Int) (axis : Nat) :
    (Rumpy.take zero mem v idx (some axis)).isSome ↔
      axis < v.shape.length ∧ ∀ i ∈ idx, (pyIndex (v.shape.getD axis 0) i).isSome := by
  unfold Rumpy.take
  simp only [Option.getD_some, ge_iff_le]
  by_cases hax : axis < v.shape.length
  · rw [if_neg (by omega)]
    simp only [hax, true_and, normalizeIdx_eq]
    rcases idx with _ | ⟨x, idx⟩
    · simp
    · rw [if_neg (by simp)]
      rw [← mapM_isSome_iff (f := pyIndex (v.shape.getD axis 0))]
      cases (x :: idx).mapM (pyIndex (v.shape.getD axis 0)) <;> simp
  · rw [if_pos (by omega)]
    simp [hax]

/-- C14, partial: `take(a, idx, axis)` puts at position `j` of the axis what the input has at
`idx[j]`.  Missing: a C-contiguous view of at least two dimensions taken along axis 0 whose axis
0 has length 1 or which has an empty axis; see the counterexamples. -/
theorem C14_take_partial (zero : α) (mem : Int → α) (v : View) (hw : v.WF) (hi : 0 < v.item)
    (idx : List Int) (axis : Nat) (hax : axis < v.shape.length) (ks : List Nat)
    (hk : idx.map (pyIndex (v.shape.getD axis 0)) = ks.map some)
    (hrow : axis = 0 → v.cFlag = true → v.shape.length ≠ 1 → 2 ≤ v.shape.headD 0 ∧ 0 < size v.shape) :
    ∃ r, Rumpy.take zero mem v idx (some axis) = some r ∧ r.Is ((v.denote mem).takeAxis axis ks) := by
  have hlen : ks.length = idx.length := by
    have := congrArg List.length hk; simpa using this.symm
  have hkl : ∀ k ∈ ks, k < v.shape.getD axis 0 := by
    intro k hkm
    have : some k ∈ idx.map (pyIndex (v.shape.getD axis 0)) := by rw [hk]; simpa using hkm
    obtain ⟨i, _, hik⟩ := List.mem_map.1 this
    exact pyIndex_lt hik
  unfold Rumpy.take
  simp only [Option.getD_some, ge_iff_le]
  rw [if_neg (by omega)]
  by_cases h0 : idx.length = 0
  · rw [if_pos h0]
    refine ⟨_, rfl, ?_, ?_⟩
    · simp [Nd.takeAxis, View.denote, hlen]
    · have hz : size (v.shape.set axis idx.length) = 0 := by
        rw [size_eq_zero_iff, h0]
        exact List.mem_set hax _
      have he : indices (v.shape.set axis idx.length) = [] :=
        List.length_eq_zero_iff.1 (by rw [length_indices, hz])
      simp [Nd.toList, Nd.takeAxis, View.denote, hlen, he, sizeOf_eq, hz]
  · rw [if_neg h0]
    have hm : (idx.mapM fun i => normalizeIdx i (v.shape.getD axis 0)) = some ks := by
      rw [mapM_some_iff]
      simp only [normalizeIdx_eq]
      have : List.Forall₂ (fun a b => a = b) (idx.map (pyIndex (v.shape.getD axis 0))) (ks.map some) := by
        rw [hk]; exact List.forall₂_same.2 (fun _ _ => rfl)
      rwa [List.forall₂_map_left_iff, List.forall₂_map_right_iff] at this
    rw [hm]
    refine ⟨_, rfl, by simp [Nd.takeAxis, View.denote, hlen], ?_⟩
    show writes _ _ = _
    unfold takeStores
    split
    · -- contiguous vector
      rename_i hc
      obtain ⟨n, hs⟩ : ∃ n, v.shape = [n] := List.length_eq_one_iff.1 hc.1
      have hax0 : axis = 0 := by omega
      subst hax0
      unfold take1dStores
      rw [writes_zipIdx (fun k => mem (v.offset + (k * v.item : Nat))) _ _ (by simp [hs, sizeOf_eq, size, hlen])]
      unfold Nd.toList Nd.takeAxis View.denote
      simp only [hs, List.set_cons_zero, indices_singleton, List.map_map]
      rw [hs] at hkl
      simp only [List.getD_cons_zero] at hkl
      apply List.ext_getElem?
      intro k
      simp only [List.getElem?_map]
      by_cases hkk : k < ks.length
      · have hin : InShape v.shape [ks[k]] := by
          rw [hs]; exact ⟨hkl _ (List.getElem_mem hkk), trivial⟩
        have ha : v.addr [ks[k]] = v.offset + ((ks[k] * v.item : Nat) : Int) := by
          unfold View.addr
          rw [isC_sound hw.len (hw.c hc.2) hin, hs]
          simp [rank, size, Nat.mul_comm]
        simp [List.getElem?_eq_getElem hkk, List.getD, ha, hkk]
      · simp [hkk]
    · split
      · -- rows of a contiguous array
        rename_i hc1 hc
        obtain ⟨hax0, hcf⟩ := hc
        subst hax0
        have hne : v.shape.length ≠ 1 := fun h => hc1 ⟨h, hcf⟩
        obtain ⟨h2, h3⟩ := hrow rfl hcf hne
        rcases hs : v.shape with _ | ⟨n, s⟩
        · simp [hs] at hax
        rw [hs] at h2 h3 hkl
        simp only [List.headD_cons, List.getD_cons_zero] at h2 hkl
        have hps : 0 < size s := by
          rw [size] at h3; exact Nat.pos_of_mul_pos_left h3 
        have hst := cFlag_stride0 hw hcf hs h2 hps
        unfold takeAxis0Stores
        rw [hst]
        simp only [Int.toNat_natCast, Nat.mul_div_cancel_left _ hi]
        have : ∀ ki ∈ ks.zipIdx, ((List.range (size s)).map fun e =>
            (ki.2 * size s + e, mem (v.offset + ((ki.1 * (v.item * size s) + e * v.item : Nat) : Int)))) =
            (indices s).map fun t => (ki.2 * size s + rank s t, mem (v.addr (ki.1 :: t))) := by
          intro ki hki
          rw [← map_rank_indices, List.map_map]
          apply List.map_congr_left
          intro t ht
          have hin : InShape v.shape (ki.1 :: t) := by
            rw [hs]
            have hm2 : ki.1 ∈ ks := by
              have := List.mem_zipIdx hki
              rw [this.2.2]; exact List.getElem_mem _
            exact ⟨hkl _ hm2, mem_indices.1 ht⟩
          simp only [Function.comp_def, Prod.mk.injEq, true_and]
          unfold View.addr
          rw [isC_sound hw.len (hw.c hcf) hin, hs]
          congr 2
          simp only [rank]
          push_cast
          ring
        rw [List.flatMap_congr this, flat_rows ks s (fun k t => mem (v.addr (k :: t))), hlen,
          writes_indices (idx.length :: s) (fun i => mem (v.addr (ks.getD (i.headD 0) 0 :: i.tail))) _
            (by simp [sizeOf_eq])]
        unfold Nd.toList Nd.takeAxis View.denote
        simp only [hs, List.set_cons_zero, hlen]
        apply List.map_congr_left
        intro i hii
        rcases i with _ | ⟨j, t⟩
        · exact absurd (mem_indices.1 hii) (by simp [InShape])
        · simp
      · -- general path
        unfold takeGeneralStores
        rw [writes_odometer _ (fun i => mem (v.offset + byteOffset (i.set axis (ks.getD (i.getD axis 0) 0)) v.strides)) _
          (by simp [sizeOf_eq])]
        unfold Nd.toList Nd.takeAxis View.denote
        rw [hlen]
        apply List.map_congr_left
        intro i hii
        have hl := (mem_indices.1 hii).length_eq
        have hli : axis < i.length := by rw [hl]; simpa using hax
        simp only [View.addr]
        congr 3
        rw [List.modify_eq_set_getElem? ]
        simp [List.getD, List.getElem?_eq_getElem hli]

/-- The 3 × 2 array 0, 1, …, 5 in memory. -/
example : Rumpy.take 0 (fun a => a / 8) (View.fresh [3, 2] 8) [2, -3] (some 0) =
    some ⟨[2, 2], [4, 5, 0, 1]⟩ := by decide
example : Rumpy.take 0 (fun a => a / 8) (View.fresh [3, 2] 8) [-1, 0, 1] (some 1) =
    some ⟨[3, 3], [1, 0, 1, 3, 2, 3, 5, 4, 5]⟩ := by decide

/-- C14 fails for `take(v[None, :], [0], axis=0)`: the view is C-contiguous, but the stride of
its length-one axis is the item size, so the row copy moves one element and leaves zeros. -/
theorem C14_take_row_counterexample :
    ∃ v : View, (View.fresh [3] 8).expandDims 0 = some v ∧
      (v.denote fun a => a / 8 + 1).toList = [1, 2, 3] ∧
      Rumpy.take 0 (fun a => a / 8 + 1) v [0] (some 0) = some ⟨[1, 3], [1, 0, 0]⟩ :=
  ⟨⟨0, [1, 3], [8, 8], 8, true, true⟩, by decide, by decide, by decide⟩

/-- C14 fails (memory safety) for `take(a[:, 0:0], [0, 1], axis=0)`: the empty view counts as
contiguous and keeps its row stride, so rows of three elements are stored into a result that has
none. -/
theorem C14_take_empty_counterexample :
    ∃ v : View, (View.fresh [2, 3] 8).sliceAxis 1 0 0 1 = some v ∧ v.shape = [2, 0] ∧
      (takeStores (fun a => a) v [0, 1] 0 [2, 0]).map (·.1) = [0, 1, 2, 3, 4, 5] ∧ size [2, 0] = 0 :=
  ⟨⟨0, [2, 0], [24, 8], 8, true, false⟩, by decide, rfl, by decide, rfl⟩

/-- C14 fails for `take(a, idx)` without an axis: NumPy indexes the flattened array, the code
uses axis 0. -/
theorem C14_take_no_axis_counterexample :
    Rumpy.take 0 (fun a => a / 8) (View.fresh [2, 2] 8) [3] none = none ∧
      ((View.fresh [2, 2] 8).denote fun a => a / 8).toList[3]? = some 3 := by decide

/-! ### `take_along_axis` -/

/-- C14: `take_along_axis(a, idx, axis)[i] = a[i with axis replaced by idx[i]]`. -/
theorem C14_take_along_axis (zero : α) (a : Nd α) (idx : Nd Int) (axis : Nat)
    (hax : axis < a.shape.length) (hl : idx.shape.length = a.shape.length)
    (hs : ∀ i, i < a.shape.length → i ≠ axis → a.shape.getD i 0 = idx.shape.getD i 0)
    (K : List Nat → Nat)
    (hk : ∀ i, InShape idx.shape i → pyIndex (a.shape.getD axis 0) (idx.get i) = some (K i)) :
    ∃ r, takeAlongAxis zero a idx axis = some r ∧ r.Is (a.takeAlong ⟨idx.shape, K⟩ axis) := by
  unfold takeAlongAxis
  rw [if_neg (by omega)]
  have hall : ((List.range a.shape.length).all fun i => i == axis || a.shape.getD i 0 == idx.shape.getD i 0) = true := by
    rw [List.all_eq_true]
    intro i hi
    by_cases he : i = axis
    · simp [he]
    · rw [Bool.or_eq_true]; right
      rw [beq_iff_eq]; exact hs i (List.mem_range.1 hi) he
  rw [hall]
  simp only [Bool.not_true, Bool.false_eq_true, if_false, normalizeIdx_eq, odometerAll_eq]
  have hm : ((indices idx.shape).zipIdx.mapM fun io => do
      let k ← pyIndex (a.shape.getD axis 0) (idx.get io.1)
      some (io.2, a.get (io.1.set axis k))) =
      some ((indices idx.shape).zipIdx.map fun io => (io.2, a.get (io.1.set axis (K io.1)))) := by
    rw [mapM_some_iff, List.forall₂_map_right_iff]
    apply List.forall₂_same.2
    intro io hio
    have : InShape idx.shape io.1 := by
      rw [indices_zipIdx] at hio
      obtain ⟨i, hi, rfl⟩ := List.mem_map.1 hio
      exact mem_indices.1 hi
    rw [hk _ this]; rfl
  rw [hm]
  refine ⟨_, rfl, rfl, ?_⟩
  show writes _ _ = _
  rw [writes_zipIdx (fun i : List Nat => a.get (i.set axis (K i))) _ _ (by simp [sizeOf_eq, length_indices])]
  rfl

/-- C14: an out-of-range index is an error. -/
theorem C14_take_along_axis_error (zero : α) (a : Nd α) (idx : Nd Int) (axis : Nat) {i : List Nat}
    (hi : InShape idx.shape i) (hk : pyIndex (a.shape.getD axis 0) (idx.get i) = none) :
    takeAlongAxis zero a idx axis = none := by
  unfold takeAlongAxis
  split
  · rfl
  · split
    · rfl
    · simp only [normalizeIdx_eq, odometerAll_eq]
      have : ¬ ((indices idx.shape).zipIdx.mapM fun (io : List Nat × Nat) => do
          let k ← pyIndex (a.shape.getD axis 0) (idx.get io.1)
          some (io.2, a.get (io.1.set axis k))).isSome := by
        rw [mapM_isSome_iff]
        intro h
        have := h (i, rank idx.shape i) (by
          rw [indices_zipIdx]; exact List.mem_map.2 ⟨i, mem_indices.2 hi, rfl⟩)
        rw [hk] at this
        simp at this
      rw [Option.not_isSome_iff_eq_none] at this
      rw [this]; rfl

example : takeAlongAxis 0 (⟨[2, 3], fun i => 10 * i.getD 0 0 + i.getD 1 0⟩ : Nd Nat)
    ⟨[2, 1], fun i => if i = [0, 0] then -1 else 0⟩ 1 = some ⟨[2, 1], [2, 10]⟩ := by decide

/-! ### `compress` -/

/-- Positions of the true entries of a condition. -/
def truePositions (cond : List Bool) (n : Nat) : List Nat :=
  (List.range n).filter fun i => cond.getD i false

theorem truePositions_min (cond : List Bool) (n : Nat) :
    (cond.take n).zipIdx.filterMap (fun bi => if bi.1 then some bi.2 else none) = truePositions cond n := by
  have h1 : ∀ (c : List Bool) (k : Nat), (c.zipIdx k).filterMap (fun bi => if bi.1 then some bi.2 else none) =
      ((List.range' k c.length).filter fun i => c.getD (i - k) false) := by
    intro c
    induction c with
    | nil => intro k; simp
    | cons b c ih =>
      intro k
      rw [List.zipIdx_cons, List.length_cons, List.range'_succ]
      have : (List.range' (k + 1) c.length).filter (fun i => (b :: c).getD (i - k) false) =
          (List.range' (k + 1) c.length).filter (fun i => c.getD (i - (k + 1)) false) := by
        apply List.filter_congr
        intro i hi
        have := List.mem_range'_1.1 hi
        have he : i - k = (i - (k + 1)) + 1 := by omega
        rw [he, List.getD_cons_succ]
      rw [List.filter_cons, this, ← ih (k + 1)]
      cases b <;> simp
  rw [h1, ← List.range_eq_range', List.length_take]
  simp only [Nat.sub_zero]
  unfold truePositions
  by_cases h : n ≤ cond.length
  · rw [Nat.min_eq_left h]
    apply List.filter_congr
    intro i hi
    have := List.mem_range.1 hi
    simp [List.getD, List.getElem?_take, this]
  · have h' : cond.length ≤ n := by omega
    rw [Nat.min_eq_right h', List.take_of_length_le h']
    obtain ⟨d, rfl⟩ := Nat.exists_eq_add_of_le h'
    rw [List.range_add, List.filter_append]
    have : (List.map (fun x => cond.length + x) (List.range d)).filter (fun i => cond.getD i false) = [] := by
      rw [List.filter_eq_nil_iff]
      intro i hi
      obtain ⟨j, _, rfl⟩ := List.mem_map.1 hi
      simp [List.getD]
    rw [this, List.append_nil]

theorem take_min_length (l : List β) (n : Nat) : l.take (min l.length n) = l.take n := by
  rcases Nat.le_total l.length n with h | h
  · rw [Nat.min_eq_left h, List.take_of_length_le (Nat.le_refl _), List.take_of_length_le h]
  · rw [Nat.min_eq_right h]

theorem filter_id_length (cond : List Bool) (n : Nat) :
    ((cond.take n).filter id).length = (truePositions cond n).length := by
  rw [← truePositions_min]
  generalize cond.take n = c
  have : ∀ k, (c.filter id).length = ((c.zipIdx k).filterMap fun bi => if bi.1 then some bi.2 else none).length := by
    induction c with
    | nil => intro k; rfl
    | cons b c ih =>
      intro k
      rw [List.zipIdx_cons]
      cases b
      · simpa using ih (k + 1)
      · simpa using ih (k + 1)
  exact this 0

/-- C14: `compress(cond, a)` picks, from the flattened array, the elements at the true positions
of the condition, in order. -/
theorem C14_compress_flat (zero : α) (mem : Int → α) (cond : List Bool) (v : View) (hw : v.WF) :
    ∃ xs, compressFlat zero mem cond v = ⟨[xs.length], xs⟩ ∧
      xs.map some = (truePositions cond (size v.shape)).map fun k => (v.denote mem).toList[k]? := by
  have hT : ∀ k ∈ truePositions cond (size v.shape), k < size v.shape := fun k hk =>
    List.mem_range.1 (List.mem_filter.1 hk).1
  have hget : ∀ k, k < size v.shape → (v.denote mem).toList[k]? = some (mem (v.addrs.getD k 0)) := by
    intro k hk
    rw [← addrs_map hw, List.getElem?_map]
    have : k < v.addrs.length := by rw [addrs_eq hw, List.length_map, length_indices]; exact hk
    simp [List.getD, List.getElem?_eq_getElem this]
  have hgoal : ((truePositions cond (size v.shape)).map fun k => mem (v.addrs.getD k 0)).map some =
      (truePositions cond (size v.shape)).map fun k => (v.denote mem).toList[k]? := by
    rw [List.map_map]
    apply List.map_congr_left
    intro k hk
    exact (hget k (hT k hk)).symm
  refine ⟨(truePositions cond (size v.shape)).map fun k => mem (v.addrs.getD k 0), ?_, hgoal⟩
  unfold compressFlat
  simp only [sizeOf_eq, take_min_length, filter_id_length, List.length_map]
  split
  · rename_i h0
    have : truePositions cond (size v.shape) = [] := List.length_eq_zero_iff.1 h0
    simp [this]
  · split
    · rename_i hc
      obtain ⟨n, hs⟩ : ∃ n, v.shape = [n] := List.length_eq_one_iff.1 hc.1
      have hpk : ((cond.take (size v.shape)).zipIdx.filter fun ic => ic.1).map (·.2) = truePositions cond (size v.shape) := by
        rw [← truePositions_min]
        generalize (cond.take (size v.shape)).zipIdx = l
        induction l with
        | nil => rfl
        | cons b l ih => rcases b with ⟨_ | _, k⟩ <;> simp [ih]
      rw [writes_packLoop _ _ _ _ (by rw [List.length_replicate, ← hpk, List.length_map])]
      rw [Arr.mk.injEq]
      refine ⟨rfl, ?_⟩
      rw [← hpk, List.map_map]
      apply List.map_congr_left
      intro ic hic
      have hk : ic.2 < n := by
        have : ic.2 ∈ truePositions cond (size v.shape) := by rw [← hpk]; exact List.mem_map_of_mem hic
        simpa [hs, size] using hT _ this
      have hin : InShape v.shape [ic.2] := by rw [hs]; exact ⟨hk, trivial⟩
      have hr : (indices v.shape)[ic.2]? = some [ic.2] := by rw [hs, indices_singleton]; simp [hk]
      simp only [Function.comp_def]
      rw [addrs_eq hw, List.getD, List.getElem?_map, hr]
      simp only [Option.map_some, Option.getD_some]
      unfold View.addr
      rw [isC_sound hw.len (hw.c hc.2) hin, hs]
      simp [rank, size, Nat.mul_comm]
    · have hal : v.addrs.length = size v.shape := by rw [addrs_eq hw, List.length_map, length_indices]
      have hpk : ((v.addrs.take (min cond.length (size v.shape))).zipIdx.filter fun oi => cond.getD oi.2 false) =
          (truePositions cond (size v.shape)).map fun k => (v.addrs.getD k 0, k) := by
        rw [zipIdx_eq_range' 0, List.filter_map]
        have hl : (v.addrs.take (min cond.length (size v.shape))).length = min cond.length (size v.shape) := by
          rw [List.length_take, hal]; omega
        have hT2 : truePositions cond (size v.shape) = truePositions cond (min cond.length (size v.shape)) := by
          rw [← truePositions_min, ← truePositions_min, take_min_length]
        rw [hl, hT2]
        unfold truePositions
        apply List.map_congr_left
        intro k hk
        have := List.mem_range.1 (List.mem_filter.1 hk).1
        simp only [Prod.mk.injEq, and_true]
        simp only [List.getD, List.getElem?_take, this, if_true]
      rw [writes_packLoop _ _ _ _ (by rw [List.length_replicate, hpk, List.length_map]), hpk, List.map_map]
      rfl

example : compressFlat 0 (fun a => a / 8) [false, true, true, false, true] (View.fresh [2, 2] 8).transpose
    = ⟨[2], [2, 1]⟩ := by decide

/-- C14: `compress(cond, a, axis)` keeps the positions of the axis whose condition is true. -/
theorem C14_compress_axis (zero : α) (cond : List Bool) (a : Nd α) (axis : Nat) (hax : axis < a.shape.length) :
    ∃ r, compressAxis zero cond a axis = some r ∧
      r.Is (a.takeAxis axis (truePositions cond (a.shape.getD axis 0))) := by
  unfold compressAxis
  rw [if_neg (by omega)]
  simp only [take_min_length, filter_id_length, truePositions_min]
  split
  · rename_i h0
    refine ⟨_, rfl, rfl, ?_⟩
    have hz : size (a.shape.set axis (truePositions cond (a.shape.getD axis 0)).length) = 0 := by
      rw [size_eq_zero_iff, h0]
      exact List.mem_set hax _
    have he : indices (a.shape.set axis (truePositions cond (a.shape.getD axis 0)).length) = [] :=
      List.length_eq_zero_iff.1 (by rw [length_indices, hz])
    unfold Nd.toList Nd.takeAxis
    dsimp only
    rw [he, sizeOf_eq, hz]
    rfl
  · refine ⟨_, rfl, rfl, ?_⟩
    show writes _ _ = _
    rw [writes_odometer _ (fun i => a.get (i.set axis
      ((truePositions cond (a.shape.getD axis 0)).getD (i.getD axis 0) 0))) _ (by simp [sizeOf_eq])]
    unfold Nd.toList Nd.takeAxis
    apply List.map_congr_left
    intro i hii
    have hli : axis < i.length := by rw [(mem_indices.1 hii).length_eq]; simpa using hax
    dsimp only
    congr 1
    rw [List.modify_eq_set_getElem?]
    simp [List.getD, List.getElem?_eq_getElem hli]

theorem C14_compress_axis_error (zero : α) (cond : List Bool) (a : Nd α) (axis : Nat) (hax : ¬ axis < a.shape.length) :
    compressAxis zero cond a axis = none := by
  unfold compressAxis
  rw [if_pos (by omega)]

example : compressAxis 0 [false, true] (⟨[3, 2], fun i => 10 * i.getD 0 0 + i.getD 1 0⟩ : Nd Nat) 0
    = some ⟨[1, 2], [10, 11]⟩ := by decide

/-! ### `flatnonzero`, `argwhere`, `nonzero` -/

/-- C14: `flatnonzero` lists the flat positions of the truthy elements in increasing order. -/
theorem C14_flatnonzero (truthy : α → Bool) (mem : Int → α) (v : View) (hw : v.WF) :
    flatnonzero truthy mem v =
      let ks := (List.range (size v.shape)).filter fun k => ((v.denote mem).toList[k]?).any truthy
      ⟨[ks.length], ks⟩ := by
  have hal : v.addrs.length = size v.shape := by rw [addrs_eq hw, List.length_map, length_indices]
  have hpk : (v.addrs.zipIdx.filter fun oi => truthy (mem oi.1)).map (·.2) =
      (List.range (size v.shape)).filter fun k => ((v.denote mem).toList[k]?).any truthy := by
    rw [zipIdx_eq_range' 0, List.filter_map, List.map_map, hal]
    rw [show ((fun x : Int × Nat => x.2) ∘ fun i => (v.addrs.getD i 0, i)) = id from rfl, List.map_id]
    apply List.filter_congr
    intro k hk
    have hk' : k < v.addrs.length := by rw [hal]; exact List.mem_range.1 hk
    rw [← addrs_map hw, List.getElem?_map]
    simp [List.getElem?_eq_getElem hk', List.getD]
  have hcnt : (v.addrs.filter fun o => truthy (mem o)).length =
      (v.addrs.zipIdx.filter fun oi => truthy (mem oi.1)).length := by
    generalize v.addrs = l
    have : ∀ k, (l.filter fun o => truthy (mem o)).length = ((l.zipIdx k).filter fun oi => truthy (mem oi.1)).length := by
      induction l with
      | nil => intro k; rfl
      | cons o l ih =>
        intro k
        rw [List.zipIdx_cons]
        by_cases h : truthy (mem o)
        · simpa [h] using ih (k + 1)
        · simpa [h] using ih (k + 1)
    exact this 0
  dsimp only
  rw [← hpk]
  unfold flatnonzero
  simp only [sizeOf_eq, hcnt, List.length_map]
  split
  · rename_i h0
    have : v.addrs = [] := List.length_eq_zero_iff.1 (by rw [hal, h0])
    simp [this]
  · split
    · rename_i h0
      have := List.length_eq_zero_iff.1 h0
      simp [this]
    · rw [writes_packLoop _ _ _ _ (by simp)]

example : flatnonzero (fun x : Int => x != 0) (fun a => a / 8 % 2) (View.fresh [2, 3] 8).transpose =
    ⟨[3], [1, 2, 5]⟩ := by decide

theorem argwhereStores_eq (nd : Nat) (p : List Nat → Bool) : ∀ (l : List (List Nat)) (row : Nat),
    argwhereStores nd (l.map fun i => (i, p i)) row =
      ((l.filter p).zipIdx row).flatMap fun ir => ir.1.zipIdx.map fun xj => (ir.2 * nd + xj.2, xj.1)
  | [], row => rfl
  | i :: l, row => by
    rw [List.map_cons, argwhereStores]
    by_cases h : p i
    · simp [h, argwhereStores_eq nd p l (row + 1)]
    · simp [h, argwhereStores_eq nd p l row]

/-- C14: for an array with at least one axis, row `r` of `argwhere` is the index of the `r`-th
truthy element in row-major order. -/
theorem C14_argwhere (truthy : α → Bool) (a : Nd α) (hd : a.shape ≠ []) :
    (argwhere truthy a).Is
      ⟨[(a.trueAt truthy).length, a.shape.length],
        fun rj => ((a.trueAt truthy).getD (rj.getD 0 0) []).getD (rj.getD 1 0) 0⟩ := by
  have hnd : max a.shape.length 1 = a.shape.length := by
    have := List.length_pos_iff.2 hd; omega
  have hempty : a.trueAt truthy = [] → (⟨[0, a.shape.length], []⟩ : Arr Nat).Is
      ⟨[(a.trueAt truthy).length, a.shape.length],
        fun rj => ((a.trueAt truthy).getD (rj.getD 0 0) []).getD (rj.getD 1 0) 0⟩ := by
    intro h
    constructor
    · simp [h]
    · simp [Nd.toList, h, indices]
  unfold argwhere
  simp only [sizeOf_eq, odometerAll_eq, hnd]
  split
  · rename_i h0
    apply hempty
    have : indices a.shape = [] := List.length_eq_zero_iff.1 (by rw [length_indices, h0])
    simp [Nd.trueAt, this]
  · split
    · rename_i h0
      exact hempty (List.length_eq_zero_iff.1 h0)
    · refine ⟨rfl, ?_⟩
      show writes _ _ = _
      rw [argwhereStores_eq]
      change writes (List.flatMap _ (a.trueAt truthy).zipIdx) (List.replicate ((a.trueAt truthy).length * _) 0) = _
      have hlen : ∀ i ∈ a.trueAt truthy, i.length = a.shape.length := fun i hi =>
        (mem_indices.1 (List.mem_filter.1 hi).1).length_eq
      generalize a.trueAt truthy = T at hlen
      have hst : (T.zipIdx.flatMap fun ir => ir.1.zipIdx.map fun xj => (ir.2 * a.shape.length + xj.2, xj.1)) =
          (indices [T.length, a.shape.length]).map fun rj =>
            (rank [T.length, a.shape.length] rj, (T.getD (rj.getD 0 0) []).getD (rj.getD 1 0) 0) := by
        rw [zipIdx_eq_range' []]
        simp only [indices, List.flatMap_map, List.map_flatMap, List.map_map, Function.comp_def]
        apply List.flatMap_congr
        intro r hr
        have hr' := List.mem_range.1 hr
        have hl : (T.getD r []).length = a.shape.length := by
          rw [List.getD_eq_getElem _ _ hr']; exact hlen _ (List.getElem_mem hr')
        rw [zipIdx_eq_range' 0, hl]
        simp [rank, size, ← List.map_eq_flatMap, Function.comp_def]
      rw [hst, writes_indices _ (fun rj => (T.getD (rj.getD 0 0) []).getD (rj.getD 1 0) 0) _ (by simp [size])]
      rfl

example : argwhere (fun x : Nat => x != 0) ⟨[2, 2], fun i => i.getD 0 0⟩ = ⟨[2, 2], [1, 0, 1, 1]⟩ := by decide

/-- C14 fails for a 0-d array: NumPy's `argwhere` has no column there, the code gives one. -/
theorem C14_argwhere_0d_counterexample :
    argwhere (fun x : Nat => x != 0) ⟨[], fun _ => 5⟩ = ⟨[1, 1], [0]⟩ := by decide

/-- C14: `nonzero` gives for each axis the coordinates of the truthy elements in row-major
order. -/
theorem C14_nonzero (nz : α → Bool) (a : Nd α) :
    nonzero nz a = (List.range a.shape.length).map fun d => (a.trueAt nz).map fun i => i.getD d 0 := by
  unfold nonzero
  rw [odometerAll_eq]
  have hgen : ∀ (l : List (List Nat)) (done : List (List Nat)), (∀ i ∈ l, i.length = a.shape.length) →
      l.foldl (nonzeroStep fun i => nz (a.get i))
        ((List.range a.shape.length).map fun d => done.map fun i => i.getD d 0) =
      (List.range a.shape.length).map fun d => (done ++ l.filter fun i => nz (a.get i)).map fun i => i.getD d 0 := by
    intro l
    induction l with
    | nil => intro done _; simp
    | cons i l ih =>
      intro done hl
      rw [List.foldl_cons]
      unfold nonzeroStep
      by_cases h : nz (a.get i)
      · rw [if_pos h]
        have : List.zipWith (fun l x => l ++ [x]) ((List.range a.shape.length).map fun d => done.map fun i => i.getD d 0) i =
            (List.range a.shape.length).map fun d => (done ++ [i]).map fun i => i.getD d 0 := by
          apply List.ext_getElem?
          intro d
          have hil : i.length = a.shape.length := hl i (by simp)
          simp only [List.getElem?_zipWith, List.getElem?_map]
          by_cases hd : d < a.shape.length
          · have hd' : d < i.length := by omega
            simp [hd, hd', List.getD]
          · simp [hd]
        have h3 := ih (done ++ [i]) (fun j hj => hl j (by simp [hj]))
        unfold nonzeroStep at h3
        rw [this, h3]
        simp [h]
      · have h3 := ih done (fun j hj => hl j (by simp [hj]))
        unfold nonzeroStep at h3
        rw [if_neg h, h3]
        simp [h]
  have := hgen (indices a.shape) [] (fun i hi => (mem_indices.1 hi).length_eq)
  simp only [List.map_nil, List.nil_append] at this
  have hr : (List.range a.shape.length).map (fun _ => ([] : List Nat)) = List.replicate a.shape.length [] := by
    simp
  rw [hr] at this
  exact this

example : nonzero (fun x : Nat => x != 0) ⟨[2, 2], fun i => i.getD 0 0⟩ = [[1, 1], [0, 1]] := by decide

/-- C14: `a[nonzero(a)]`, `a[mask]` and `flatnonzero` agree: the mask "truthy" selects the
elements at the indices `argwhere` lists. -/
theorem C14_mask_agrees (zero : α) (truthy : α → Bool) (a : Nd α) :
    selectByMask zero a ⟨a.shape, fun i => truthy (a.get i)⟩ =
      some ⟨[(a.trueAt truthy).length], (a.trueAt truthy).map a.get⟩ :=
  C14_mask zero a _ rfl

end Props
