import Verif.Model.Cumulative
import Verif.Lemmas.ArgReduce
/-!
# Lemmas: cumulative operations and differences
-/

namespace Rumpy
open Spec

/-- Stores that hit exactly the row-major positions of a shape, each with the value of `f` there,
fill the array with `f`. -/
theorem writes_cover {s : List Nat} {ws : List (Nat × α)} (f : List Nat → α) {d : List α} (hd : d.length = size s)
    (h1 : ∀ w ∈ ws, ∃ idx, InShape s idx ∧ w = (rank s idx, f idx))
    (h2 : ∀ idx, InShape s idx → (rank s idx, f idx) ∈ ws) : writes ws d = (indices s).map f := by
  apply eq_toList (nd := ⟨s, f⟩) (by simp [hd])
  intro idx hi
  dsimp only at hi ⊢
  apply writes_get_of_agree (List.mem_map.2 ⟨_, h2 idx hi, rfl⟩)
  · intro y hy
    obtain ⟨idx', hi', e⟩ := h1 _ hy
    simp only [Prod.mk.injEq] at e
    rw [e.2, rank_inj hi hi' e.1]
  · rw [hd]; exact rank_lt hi

theorem inShape_eraseIdx : ∀ {s idx : List Nat} (axis : Nat), InShape s idx → InShape (s.eraseIdx axis) (idx.eraseIdx axis)
  | [], [], _, _ => trivial
  | n :: s, i :: idx, 0, h => h.2
  | n :: s, i :: idx, axis + 1, h => ⟨h.1, inShape_eraseIdx axis h.2⟩

theorem inShape_getD : ∀ {s idx : List Nat} {axis : Nat}, InShape s idx → axis < s.length → idx.getD axis 0 < s.getD axis 0
  | n :: s, i :: idx, 0, h, _ => h.1
  | n :: s, i :: idx, axis + 1, h, hl => by
    simpa using inShape_getD h.2 (by simpa using hl)

theorem insertIdx_eraseIdx_set : ∀ {l : List Nat} {axis : Nat} (j : Nat), axis < l.length →
    (l.eraseIdx axis).insertIdx axis j = l.set axis j
  | [], _, _, h => by simp at h
  | a :: l, 0, j, _ => by simp
  | a :: l, axis + 1, j, h => by
    simp [insertIdx_eraseIdx_set (l := l) j (by simpa using h)]

theorem set_getD_self : ∀ (l : List Nat) (axis : Nat), axis < l.length → l.set axis (l.getD axis 0) = l
  | [], _, h => by simp at h
  | a :: l, 0, _ => by simp
  | a :: l, axis + 1, h => by
    have := set_getD_self l axis (by simpa using h)
    simp only [List.getD_cons_succ, List.set_cons_succ, this]

theorem eraseIdx_insertIdx_self : ∀ (l : List Nat) (axis j : Nat), axis ≤ l.length → (l.insertIdx axis j).eraseIdx axis = l
  | l, 0, j, _ => by simp
  | [], axis + 1, j, h => by simp at h
  | a :: l, axis + 1, j, h => by simp [eraseIdx_insertIdx_self l axis j (by simpa using h)]

theorem getD_insertIdx_self : ∀ (l : List Nat) (axis j : Nat), axis ≤ l.length → (l.insertIdx axis j).getD axis 0 = j
  | l, 0, j, _ => by simp
  | [], axis + 1, j, h => by simp at h
  | a :: l, axis + 1, j, h => by
    have := getD_insertIdx_self l axis j (by simpa using h)
    simpa using this

theorem set_insertIdx_self : ∀ (l : List Nat) (axis j k : Nat), axis ≤ l.length →
    (l.insertIdx axis j).set axis k = l.insertIdx axis k
  | l, 0, j, k, _ => by simp
  | [], axis + 1, j, k, h => by simp at h
  | a :: l, axis + 1, j, k, h => by simp [set_insertIdx_self l axis j k (by simpa using h)]

/-- An index of a shape is a lane together with a position in it. -/
theorem lane_of_index {s idx : List Nat} {axis : Nat} (hax : axis < s.length) (hi : InShape s idx) :
    InShape (s.eraseIdx axis) (idx.eraseIdx axis) ∧ idx.getD axis 0 < s.getD axis 0 ∧
      (idx.eraseIdx axis).insertIdx axis (idx.getD axis 0) = idx := by
  have hl := hi.length_eq
  refine ⟨inShape_eraseIdx axis hi, inShape_getD hi hax, ?_⟩
  rw [insertIdx_eraseIdx_set _ (by omega), set_getD_self _ _ (by omega)]

theorem lane_length {s idx : List Nat} {axis : Nat} (hax : axis < s.length) (hi : InShape (s.eraseIdx axis) idx) :
    idx.length = s.length - 1 := by
  have := hi.length_eq
  rwa [List.length_eraseIdx, if_pos hax] at this

/-- Stores lane by lane fill the array. -/
theorem writes_lanes {s : List Nat} {axis : Nat} (hax : axis < s.length) (f : List Nat → α) {d : List α}
    (hd : d.length = size s) (g : List Nat → List (Nat × α))
    (hg : ∀ idx, InShape (s.eraseIdx axis) idx → g idx = (List.range (s.getD axis 0)).map fun j =>
      (rank s (idx.insertIdx axis j), f (idx.insertIdx axis j))) :
    writes ((indices (s.eraseIdx axis)).flatMap g) d = (indices s).map f := by
  apply writes_cover f hd
  · intro w hw
    obtain ⟨idx, hi, hw⟩ := List.mem_flatMap.1 hw
    have hi := mem_indices.1 hi
    rw [hg idx hi] at hw
    obtain ⟨j, hj, rfl⟩ := List.mem_map.1 hw
    exact ⟨_, inShape_insertIdx hax hi (List.mem_range.1 hj), rfl⟩
  · intro idx hi
    obtain ⟨h1, h2, h3⟩ := lane_of_index hax hi
    rw [List.mem_flatMap]
    refine ⟨_, mem_indices.2 h1, ?_⟩
    rw [hg _ h1, List.mem_map]
    exact ⟨_, List.mem_range.2 h2, by rw [h3]⟩

/-! ### The accumulation loop -/

theorem cumLoop_eq (combine : β → α → β) : ∀ (l : List α) (acc : β),
    cumLoop combine acc l = (List.range l.length).map fun k => (l.take (k + 1)).foldl combine acc
  | [], acc => rfl
  | x :: l, acc => by
    rw [cumLoop, cumLoop_eq combine l (combine acc x), List.length_cons, List.range_succ_eq_map, List.map_cons,
      List.map_map]
    rfl

theorem cumLoop_length (combine : β → α → β) (acc : β) (l : List α) : (cumLoop combine acc l).length = l.length := by
  simp [cumLoop_eq]

/-- The accumulation over a lane, with positions. -/
theorem cumLoop_zipIdx (combine : β → α → β) (acc : β) (n : Nat) (d : Nat → α) (pos : Nat → γ) :
    ((cumLoop combine acc ((List.range n).map d)).zipIdx.map fun xj => (pos xj.2, xj.1)) =
      (List.range n).map fun j => (pos j, ((List.range (j + 1)).map d).foldl combine acc) := by
  apply List.ext_getElem?
  intro k
  rw [cumLoop_eq]
  by_cases hk : k < n
  · simp only [List.length_map, List.length_range, List.getElem?_map, List.getElem?_zipIdx, Nat.zero_add, List.getElem?_range hk,
      Option.map_some]
    rw [← List.map_take, List.take_range, Nat.min_eq_left (by omega)]
  · simp [hk]

theorem cumIndex_eq {ndim axis : Nat} (hax : axis < ndim) {outer : List Nat} (h : outer.length = ndim - 1) (j : Nat) :
    cumIndex ndim axis outer j = outer.insertIdx axis j := by
  unfold cumIndex
  apply List.ext_getElem
  · simp [List.length_insertIdx, h]
    rw [if_pos (by omega)]; omega
  · intro d h1 h2
    simp only [List.length_map, List.length_range] at h1
    simp only [List.getElem_map, List.getElem_range, List.getElem_insertIdx]
    rcases Nat.lt_trichotomy d axis with hd | hd | hd
    · rw [if_neg (by omega), if_pos hd, dif_pos hd, List.getD_eq_getElem _ _ (by omega)]
    · rw [if_pos hd, dif_neg (by omega), dif_pos hd]
    · rw [if_neg (by omega), if_neg (by omega), dif_neg (by omega), dif_neg (by omega),
        List.getD_eq_getElem _ _ (by omega)]

/-- The running reduction along the lane through an index. -/
def laneCum (combine : α → α → α) (init : α) (mem : Int → α) (v : View) (axis : Nat) (idx : List Nat) : α :=
  ((List.range (idx.getD axis 0 + 1)).map fun j => mem (v.addr (idx.set axis j))).foldl combine init

theorem laneCum_insert (combine : α → α → α) (init : α) (mem : Int → α) (v : View) {axis : Nat} {idx : List Nat}
    (h : axis ≤ idx.length) (j : Nat) :
    laneCum combine init mem v axis (idx.insertIdx axis j) =
      ((List.range (j + 1)).map fun j => mem (v.addr (idx.insertIdx axis j))).foldl combine init := by
  unfold laneCum
  rw [getD_insertIdx_self _ _ _ h]
  simp only [set_insertIdx_self _ _ _ _ h]

theorem sizeOf_ne_zero_getD {s : List Nat} {axis : Nat} (hax : axis < s.length) (h : size s ≠ 0) :
    s.getD axis 0 ≠ 0 ∧ size (s.eraseIdx axis) ≠ 0 ∧ size s = size (s.eraseIdx axis) * s.getD axis 0 := by
  have e : size s = size (s.eraseIdx axis) * s.getD axis 0 := by
    rw [List.eraseIdx_eq_take_drop_succ, size_append]
    conv_lhs => rw [shape_split hax, size_append, size]
    ring
  rw [e] at h
  exact ⟨fun h' => h (by rw [h', Nat.mul_zero]), fun h' => h (by rw [h', Nat.zero_mul]), e⟩

/-- `if os.isEmpty then [1] else os`: the walk over the lanes, for functions that ignore the
extra coordinate. -/
theorem outer_flatMap (os : List Nat) (g : List Nat → List β) (h0 : os = [] → g [0] = g []) :
    (indices (if os.isEmpty then [1] else os)).flatMap g = (indices os).flatMap g := by
  rcases os with _ | ⟨n, os⟩
  · simp [indices, List.range_succ, h0]
  · rfl

theorem size_zero_of_indices {s : List Nat} (h : size s = 0) : indices s = [] :=
  List.eq_nil_of_length_eq_zero (by rw [length_indices, h])

/-- Trailing axes of a lane-contiguous axis in a C-contiguous array hold one element, or the axis
does. -/
theorem contiguous_lane {v : View} (hw : v.WF) (hc : v.cFlag = true) {axis : Nat} (hax : axis < v.shape.length)
    (hpos : size v.shape ≠ 0) (hst : v.strides.getD axis 0 = v.item) (hitem : 0 < v.item) :
    v.shape.getD axis 0 = 1 ∨ size (v.shape.drop (axis + 1)) = 1 := by
  obtain ⟨hn, ho, he⟩ := sizeOf_ne_zero_getD hax hpos
  by_cases h1 : v.shape.getD axis 0 = 1
  · exact Or.inl h1
  right
  have her : v.shape.eraseIdx axis = v.shape.take axis ++ v.shape.drop (axis + 1) := List.eraseIdx_eq_take_drop_succ ..
  rw [her, size_append] at ho
  have hA : size (v.shape.take axis) ≠ 0 := fun h => ho (by rw [h, Nat.zero_mul])
  have hB : size (v.shape.drop (axis + 1)) ≠ 0 := fun h => ho (by rw [h, Nat.mul_zero])
  obtain ⟨i, hi, -⟩ := exists_rank (Nat.pos_of_ne_zero hA)
  obtain ⟨t, ht, -⟩ := exists_rank (Nat.pos_of_ne_zero hB)
  have a0 := cFlag_lane hw hc hax hi ht (j := 0) (by omega)
  have a1 := cFlag_lane hw hc hax hi ht (j := 1) (by omega)
  have hit : InShape (v.shape.eraseIdx axis) (i ++ t) := by
    rw [her]; exact (inShape_append_iff hi.length_eq).2 ⟨hi, ht⟩
  rw [lane_addr hw hax hit, hst] at a0 a1
  have : (v.item : Int) * 1 = (size (v.shape.drop (axis + 1)) : Int) * v.item := by
    push_cast at a0 a1
    have e : ∀ a b c x y z : Int, a + b + x * 0 = a + ((c + 0) * y + z) * x → a + b + x * 1 = a + ((c + 1) * y + z) * x →
        x * 1 = y * x := by
      intro a b c x y z h1 h2
      have : a + b + x * 1 - (a + b + x * 0) = a + ((c + 1) * y + z) * x - (a + ((c + 0) * y + z) * x) := by rw [h1, h2]
      ring_nf at this
      ring_nf
      exact this
    exact e _ _ _ _ _ _ a0 a1
  rw [Int.mul_comm] at this
  have := Int.eq_of_mul_eq_mul_right (by omega : (v.item : Int) ≠ 0) this
  omega


theorem rank_insertIdx {s : List Nat} {axis : Nat} (hax : axis < s.length) {i t : List Nat}
    (hi : InShape (s.take axis) i) (j : Nat) :
    rank s ((i ++ t).insertIdx axis j) =
      (rank (s.take axis) i * s.getD axis 0 + j) * size (s.drop (axis + 1)) + rank (s.drop (axis + 1)) t := by
  have hta : (s.take axis).length = axis := by rw [List.length_take]; omega
  have hil := hi.length_eq
  have hins : (i ++ t).insertIdx axis j = i ++ j :: t := by
    conv_lhs => rw [← hta, ← hil]
    exact insertIdx_append_self i t j
  rw [hins]
  conv_lhs => rw [shape_split hax]
  rw [rank_append _ _ hil]
  simp only [rank, size]
  ring

theorem split_lane {s : List Nat} {axis : Nat} (hax : axis < s.length) {idx : List Nat}
    (hi : InShape (s.eraseIdx axis) idx) :
    ∃ i t, idx = i ++ t ∧ InShape (s.take axis) i ∧ InShape (s.drop (axis + 1)) t := by
  have hta : (s.take axis).length = axis := by rw [List.length_take]; omega
  have hl := lane_length hax hi
  have hil : (idx.take axis).length = (s.take axis).length := by rw [List.length_take, hta]; omega
  refine ⟨idx.take axis, idx.drop axis, (List.take_append_drop _ _).symm, ?_⟩
  rw [List.eraseIdx_eq_take_drop_succ, ← List.take_append_drop axis idx, inShape_append_iff hil] at hi
  exact hi

theorem contiguous_rank {v : View} (hw : v.WF) (hc : v.cFlag = true) {axis : Nat} (hax : axis < v.shape.length)
    (hpos : size v.shape ≠ 0) (hst : v.strides.getD axis 0 = v.item) (hitem : 0 < v.item) {idx : List Nat}
    (hi : InShape (v.shape.eraseIdx axis) idx) {j : Nat} (hj : j < v.shape.getD axis 0) :
    rank v.shape (idx.insertIdx axis j) = rank (v.shape.eraseIdx axis) idx * v.shape.getD axis 0 + j := by
  obtain ⟨i, t, rfl, hiA, htB⟩ := split_lane hax hi
  have hr : rank (v.shape.eraseIdx axis) (i ++ t) =
      rank (v.shape.take axis) i * size (v.shape.drop (axis + 1)) + rank (v.shape.drop (axis + 1)) t := by
    rw [List.eraseIdx_eq_take_drop_succ, rank_append _ _ hiA.length_eq]
  rw [rank_insertIdx hax hiA, hr]
  have ht := rank_lt htB
  rcases contiguous_lane hw hc hax hpos hst hitem with h | h
  · rw [h] at hj ⊢
    have : j = 0 := by omega
    subst this
    ring
  · rw [h] at ht ⊢
    have : rank (v.shape.drop (axis + 1)) t = 0 := by omega
    rw [this]
    ring

theorem cumFlat_data (combine : α → α → α) (init : α) (mem : Int → α) {v : View} (hw : v.WF) (zero : α) :
    (cumFlat combine init mem v zero).shape = [size v.shape] ∧
    (cumFlat combine init mem v zero).data = running combine init (v.denote mem).toList := by
  have hr : ∀ l, running combine init l = cumLoop combine init l := fun l => (cumLoop_eq combine l init).symm
  unfold cumFlat
  dsimp only
  rw [sizeOf_eq]
  by_cases h0 : size v.shape = 0
  · rw [if_pos h0]
    simp [h0, running, Nd.toList, View.denote, size_zero_of_indices h0]
  · rw [if_neg h0]
    refine ⟨rfl, ?_⟩
    dsimp only
    have hsrc : (if v.cFlag then (List.range (size v.shape)).map fun (i : Nat) => mem (v.offset + i * v.item)
        else v.addrs.map mem) = (v.denote mem).toList := by
      split
      · next hc =>
        apply eq_toList
        · simp [View.denote]
        · intro idx hi
          have := rank_lt hi
          simp only [View.denote] at hi this ⊢
          rw [List.getElem?_map, List.getElem?_range this, Option.map_some, cFlag_addr hw hc hi]
      · exact addrs_map hw mem
    rw [hsrc, hr]
    have := writes_zipIdx (fun x : α => x) (cumLoop combine init (v.denote mem).toList)
      (List.replicate (size v.shape) zero) (by simp [cumLoop_length, View.denote, Nd.length_toList])
    simpa using this

theorem cumAxis_data (combine : α → α → α) (init : α) (mem : Int → α) {v : View} (hw : v.WF) (hitem : 0 < v.item)
    {axis : Nat} (hax : axis < v.shape.length) (zero : α) :
    (cumAxis combine init mem v axis zero).shape = v.shape ∧
    (cumAxis combine init mem v axis zero).data = (indices v.shape).map (laneCum combine init mem v axis) := by
  unfold cumAxis
  dsimp only
  rw [sizeOf_eq]
  by_cases h0 : size v.shape = 0
  · rw [if_pos h0]
    simp [size_zero_of_indices h0]
  · rw [if_neg h0]
    obtain ⟨hn, ho, hsz⟩ := sizeOf_ne_zero_getD hax h0
    by_cases h1 : v.strides.getD axis 0 = v.item ∧ v.cFlag = true
    · rw [if_pos h1]
      refine ⟨rfl, ?_⟩
      dsimp only
      have hdiv : size v.shape / v.shape.getD axis 0 = size (v.shape.eraseIdx axis) := by
        rw [hsz, Nat.mul_div_cancel _ (by omega)]
      rw [hdiv, ← map_rank_indices, List.flatMap_map]
      apply writes_lanes hax (laneCum combine init mem v axis) (by simp)
      intro idx hi
      rw [cumLoop_zipIdx]
      apply List.map_congr_left
      intro j hj
      have hj := List.mem_range.1 hj
      rw [laneCum_insert _ _ _ _ (by rw [lane_length hax hi]; omega),
        contiguous_rank hw h1.2 hax h0 h1.1 hitem hi hj]
      congr 2
      apply List.map_congr_left
      intro k hk
      have hk := List.mem_range.1 hk
      rw [cFlag_addr hw h1.2 (inShape_insertIdx hax hi (by omega)),
        contiguous_rank hw h1.2 hax h0 h1.1 hitem hi (by omega)]
    · rw [if_neg h1]
      refine ⟨rfl, ?_⟩
      dsimp only
      rw [odometerAll_eq, outer_flatMap]
      · apply writes_lanes hax (laneCum combine init mem v axis) (by simp)
        intro idx hi
        have hl := lane_length hax hi
        rw [cumLoop_zipIdx combine init (v.shape.getD axis 0) _
          (fun j => linearIndex (cumIndex v.shape.length axis idx j) v.shape)]
        apply List.map_congr_left
        intro j hj
        rw [laneCum_insert _ _ _ _ (by omega), cumIndex_eq hax hl,
          linearIndex_eq (by rw [List.length_insertIdx, if_pos (by omega)]; omega)]
        congr 2
        apply List.map_congr_left
        intro k _
        rw [lane_addr hw hax hi, Int.mul_comm (k : Int), Int.add_assoc]
      · intro he
        have hl : v.shape.length = 1 := by
          have := congrArg List.length he
          rw [List.length_eraseIdx, if_pos hax] at this
          simp at this; omega
        have hax0 : axis = 0 := by omega
        subst hax0
        have hst : v.strides.eraseIdx 0 = [] := by
          rw [← List.length_eq_zero_iff, List.length_eraseIdx, hw.len, if_pos hax]; omega
        simp [hst, byteOffset, hl, cumIndex]

theorem cumulativeOp_data (combine : α → α → α) (init : α) (mem : Int → α) (v : View)
    {axis : Nat} (hax : axis < v.shape.length) (zero : α) :
    (cumulativeOp combine init mem v axis zero).shape = v.shape ∧
    (cumulativeOp combine init mem v axis zero).data = (indices v.shape).map (laneCum combine init mem v axis) := by
  unfold cumulativeOp
  dsimp only
  rw [sizeOf_eq]
  by_cases h0 : size v.shape = 0
  · rw [if_pos h0]
    simp [size_zero_of_indices h0]
  · rw [if_neg h0]
    obtain ⟨hn, ho, hsz⟩ := sizeOf_ne_zero_getD hax h0
    refine ⟨rfl, ?_⟩
    dsimp only
    have hdiv : size v.shape / v.shape.getD axis 0 =
        sizeOf (if (v.shape.eraseIdx axis).isEmpty then [1] else v.shape.eraseIdx axis) := by
      rw [sizeOf_eq, outShape_size, hsz, Nat.mul_div_cancel _ (by omega)]
    rw [hdiv]
    have := odometerAll_eq (if (v.shape.eraseIdx axis).isEmpty then [1] else v.shape.eraseIdx axis)
    unfold odometerAll at this
    rw [this, outer_flatMap]
    · apply writes_lanes hax (laneCum combine init mem v axis) (by simp)
      intro idx hi
      have hl := lane_length hax hi
      rw [cumLoop_zipIdx combine init (v.shape.getD axis 0) _
        (fun j => linearIndex (argSlowIndex v.shape.length axis idx j) v.shape)]
      apply List.map_congr_left
      intro j hj
      rw [laneCum_insert _ _ _ _ (by omega), argSlowIndex_eq hax hl,
        linearIndex_eq (by rw [List.length_insertIdx, if_pos (by omega)]; omega)]
      congr 2
      apply List.map_congr_left
      intro k _
      rw [argSlowIndex_eq hax hl]
    · intro he
      have hl : v.shape.length = 1 := by
        have := congrArg List.length he
        rw [List.length_eraseIdx, if_pos hax] at this
        simp at this; omega
      have hax0 : axis = 0 := by omega
      subst hax0
      simp [hl, argSlowIndex]

/-! ### Fresh arrays read back -/

theorem Arr.Is.denote {r : Arr α} {nd : Nd α} (h : r.Is nd) {item : Nat} (hitem : 0 < item) (zero : α) :
    ((r.view item).denote (r.mem item zero)).Same nd := by
  refine ⟨h.1, ?_⟩
  intro idx hi
  have hi : InShape r.shape idx := hi
  have hi' : InShape nd.shape idx := h.1 ▸ hi
  have ha : (r.view item).addr idx = ((r.view item).offset + (rank r.shape idx : Int) * item) :=
    cFlag_addr (View.WF.fresh _ _) rfl hi
  show r.mem item zero ((r.view item).addr idx) = _
  rw [ha]
  unfold Arr.mem Arr.view View.fresh
  dsimp only
  have hz : ((0 : Int) + (rank r.shape idx : Int) * item).toNat / item = rank r.shape idx := by
    rw [Int.zero_add, ← Int.natCast_mul, Int.toNat_natCast, Nat.mul_div_cancel _ hitem]
  have := h.at? hi'
  unfold Arr.at? at this
  rw [hz, List.getD, this, Option.getD_some]

theorem Nd.Same.toList {a b : Nd α} (h : a.Same b) : a.toList = b.toList := by
  unfold Spec.Nd.toList
  rw [← h.1]
  exact List.map_congr_left fun i hi => h.2 i (mem_indices.1 hi)

/-! ### Differences -/

theorem size_set_getD {s : List Nat} {axis : Nat} (hax : axis < s.length) (k : Nat) :
    size (s.set axis k) = size (s.eraseIdx axis) * k := by
  have h1 : (s.set axis k).eraseIdx axis = s.eraseIdx axis := by
    rw [List.eraseIdx_set_eq]
  rw [← h1]
  have hax' : axis < (s.set axis k).length := by simpa using hax
  rw [List.eraseIdx_eq_take_drop_succ, size_append]
  conv_lhs => rw [shape_split hax', size_append, size]
  have : (s.set axis k).getD axis 0 = k := by
    rw [List.getD_eq_getElem _ _ hax']; simp
  rw [this]
  ring

theorem inShape_set {s idx : List Nat} {axis k : Nat} (hi : InShape (s.set axis k) idx) {j : Nat}
    (hj : j < s.getD axis 0) : InShape s (idx.set axis j) := by
  induction s generalizing idx axis with
  | nil => simp at hj
  | cons n s ih =>
    rcases idx with _ | ⟨i, idx⟩
    · cases axis <;> simp [InShape] at hi
    · cases axis with
      | zero => exact ⟨by simpa using hj, hi.2⟩
      | succ axis => exact ⟨hi.1, ih hi.2 (by simpa using hj)⟩

theorem byteOffset_set : ∀ {idx : List Nat} {st : List Int} {axis : Nat}, axis < idx.length → idx.length = st.length →
    byteOffset (idx.set axis (idx.getD axis 0 + 1)) st = byteOffset idx st + st.getD axis 0
  | [], _, _, h, _ => by simp at h
  | i :: idx, [], _, _, h => by simp at h
  | i :: idx, s :: st, 0, _, _ => by
    simp only [List.set_cons_zero, List.getD_cons_zero, byteOffset]
    push_cast
    ring
  | i :: idx, s :: st, axis + 1, h, hl => by
    have := byteOffset_set (idx := idx) (st := st) (axis := axis) (by simpa using h) (by simpa using hl)
    simp only [List.set_cons_succ, List.getD_cons_succ, byteOffset, this]
    ring

/-- The difference of two neighbours along an axis. -/
def laneDiff (sub : α → α → α) (a : Nd α) (axis : Nat) (idx : List Nat) : α :=
  sub (a.get (idx.set axis (idx.getD axis 0 + 1))) (a.get idx)

theorem diffStep_data (sub subF : α → α → α) (mem : Int → α) {v : View} (hw : v.WF)
    {axis : Nat} (hax : axis < v.shape.length) (hn : v.shape.getD axis 0 ≠ 0) (zero : α)
    (hF : (v.shape.length = 1 ∧ v.cFlag = true) ∨ ∀ idx, InShape (v.shape.set axis (v.shape.getD axis 0 - 1)) idx →
      laneDiff subF (v.denote mem) axis idx = laneDiff sub (v.denote mem) axis idx) :
    (diffStep sub subF mem v axis zero).shape = v.shape.set axis (v.shape.getD axis 0 - 1) ∧
    (diffStep sub subF mem v axis zero).data =
      (indices (v.shape.set axis (v.shape.getD axis 0 - 1))).map (laneDiff sub (v.denote mem) axis) := by
  unfold diffStep
  dsimp only
  rw [sizeOf_eq]
  generalize hsN : v.shape.set axis (v.shape.getD axis 0 - 1) = sN at *
  by_cases h0 : size sN = 0
  · rw [if_pos h0]
    simp [size_zero_of_indices h0]
  · rw [if_neg h0]
    by_cases h1 : v.shape.length = 1 ∧ v.cFlag = true
    · rw [if_pos h1]
      refine ⟨rfl, ?_⟩
      dsimp only
      obtain ⟨n, hs⟩ : ∃ n, v.shape = [n] := by
        rcases hv : v.shape with _ | ⟨a, _ | ⟨b, s⟩⟩ <;> simp [hv] at h1
        exact ⟨a, rfl⟩
      have hax0 : axis = 0 := by omega
      subst hax0
      simp only [hs, List.getD_cons_zero, List.set_cons_zero] at hsN hn
      subst hsN
      have hind : indices [n - 1] = (List.range (n - 1)).map fun r => [r] := by simp [indices, ← List.map_eq_flatMap]
      rw [hind, List.map_map]
      simp only [size, Nat.mul_one]
      apply List.map_congr_left
      intro i hi
      have hi := List.mem_range.1 hi
      have a1 := cFlag_addr hw h1.2 (idx := [i]) (by rw [hs]; simp [InShape]; omega)
      have a2 := cFlag_addr hw h1.2 (idx := [i + 1]) (by rw [hs]; simp [InShape]; omega)
      simp only [hs, rank, size, Nat.mul_one, Nat.add_zero] at a1 a2
      simp only [Function.comp_def, laneDiff, View.denote, List.set_cons_zero, List.getD_cons_zero, a1, a2]
    · rw [if_neg h1]
      refine ⟨rfl, ?_⟩
      dsimp only
      rw [writes_odometer sN (fun i : List Nat => subF (mem (v.addr i + v.strides.getD axis 0)) (mem (v.addr i))) _ (by simp)]
      apply List.map_congr_left
      intro idx hi
      have hi := mem_indices.1 hi
      have hF := hF.resolve_left h1
      rw [← hF idx hi]
      have hl := hi.length_eq
      rw [← hsN, List.length_set] at hl
      unfold laneDiff
      simp only [View.denote, View.addr]
      rw [byteOffset_set (by omega) (by rw [hw.len]; exact hl), Int.add_assoc]


theorem getD_of_getElem? {l : List α} {i : Nat} {x : α} (h : l[i]? = some x) (z : α) : l.getD i z = x := by
  simp [List.getD, h]

theorem getD_set_self {s : List Nat} {axis : Nat} (hax : axis < s.length) (k : Nat) : (s.set axis k).getD axis 0 = k := by
  rw [List.getD_eq_getElem _ _ (by simpa using hax)]; simp

theorem inShape_set_sub {s idx : List Nat} {axis : Nat} (hax : axis < s.length)
    (hi : InShape (s.set axis (s.getD axis 0 - 1)) idx) :
    InShape s idx ∧ InShape s (idx.set axis (idx.getD axis 0 + 1)) := by
  have hl := hi.length_eq
  rw [List.length_set] at hl
  have h1 := inShape_getD hi (by simpa using hax)
  rw [getD_set_self hax] at h1
  refine ⟨?_, inShape_set hi (by omega)⟩
  have := inShape_set hi (j := idx.getD axis 0) (by omega)
  rwa [set_getD_self _ _ (by omega)] at this

theorem Nd.Same.differences {a b : Nd α} (h : a.Same b) (sub : α → α → α) {axis : Nat} (hax : axis < a.shape.length) :
    (a.differences sub axis).Same (b.differences sub axis) := by
  refine ⟨by simp only [Spec.Nd.differences, h.1], ?_⟩
  intro idx hi
  obtain ⟨h1, h2⟩ := inShape_set_sub hax hi
  simp only [Spec.Nd.differences]
  rw [h.2 _ h1, h.2 _ h2]

theorem Nd.Same.differencesN (sub : α → α → α) {axis : Nat} : ∀ (n : Nat) {a b : Nd α}, a.Same b →
    axis < a.shape.length → (a.differencesN sub n axis).Same (b.differencesN sub n axis)
  | 0, _, _, h, _ => h
  | n + 1, a, b, h, hax => Nd.Same.differencesN sub n (Nd.Same.differences h sub hax)
      (by simpa [Spec.Nd.differences] using hax)

theorem differencesN_shape (sub : α → α → α) {axis : Nat} : ∀ (n : Nat) (a : Nd α), axis < a.shape.length →
    (a.differencesN sub n axis).shape = a.shape.set axis (a.shape.getD axis 0 - n)
  | 0, a, hax => by
    rw [Nat.sub_zero, set_getD_self _ _ hax]; rfl
  | n + 1, a, hax => by
    rw [Nd.differencesN, differencesN_shape sub n _ (by simpa [Spec.Nd.differences] using hax)]
    simp only [Spec.Nd.differences]
    rw [getD_set_self hax, List.set_set]
    congr 1
    omega

theorem Arr.Is.congr {r : Arr α} {a b : Nd α} (h : r.Is a) (hs : a.Same b) : r.Is b :=
  ⟨h.1.trans hs.1, h.2.trans (Nd.Same.toList hs)⟩

theorem diff_eq (sub subF : α → α → α) (zero : α) {axis : Nat} : ∀ (n : Nat) (mem : Int → α) (v : View), v.WF →
    0 < v.item → axis < v.shape.length → (size (v.shape.eraseIdx axis) ≠ 0 ∨ n ≤ 1) →
    ((v.shape.length = 1 ∧ v.cFlag = true) ∨ ∀ x y, subF x y = sub x y) →
    (diff sub subF zero n mem v axis).Is ((v.denote mem).differencesN sub n axis)
  | 0, mem, v, hw, _, _, _, _ => ⟨rfl, addrs_map hw mem⟩
  | n + 1, mem, v, hw, hitem, hax, hne, hF => by
    unfold diff
    dsimp only
    have hshape := differencesN_shape sub (n + 1) (v.denote mem) hax
    by_cases hle : v.shape.getD axis 0 ≤ n + 1
    · rw [if_pos hle]
      have hs : ((v.denote mem).differencesN sub (n + 1) axis).shape = v.shape.set axis 0 := by
        rw [hshape]
        show v.shape.set axis (v.shape.getD axis 0 - (n + 1)) = _
        rw [Nat.sub_eq_zero_of_le hle]
      refine ⟨hs.symm, ?_⟩
      unfold Nd.toList
      rw [hs, size_zero_of_indices (by rw [size_set_getD hax, Nat.mul_zero]), List.map_nil]
    · rw [if_neg hle]
      have hstep : (diffStep sub subF mem v axis zero).Is ((v.denote mem).differences sub axis) :=
        diffStep_data sub subF mem hw hax (by omega) zero (hF.imp id fun h idx _ => h _ _)
      rw [sizeOf_eq, size_set_getD hax]
      by_cases h0 : size (v.shape.eraseIdx axis) * (v.shape.getD axis 0 - 1) = 0
      · rw [if_pos h0]
        have hn : n = 0 := by
          rcases hne with h | h
          · rcases Nat.mul_eq_zero.1 h0 with h' | h'
            · exact absurd h' h
            · omega
          · omega
        subst hn
        exact hstep
      · rw [if_neg h0]
        by_cases hn : n + 1 > 1
        · rw [if_pos hn]
          have hsame := hstep.denote hitem zero
          have hrs : (diffStep sub subF mem v axis zero).shape = v.shape.set axis (v.shape.getD axis 0 - 1) := hstep.1
          have ih := diff_eq sub subF zero (axis := axis) n
            ((diffStep sub subF mem v axis zero).mem v.item zero) ((diffStep sub subF mem v axis zero).view v.item)
            (View.WF.fresh _ _) hitem (by show axis < (diffStep sub subF mem v axis zero).shape.length
                                          rw [hrs]; simpa using hax)
            (Or.inl (by
              show size ((diffStep sub subF mem v axis zero).shape.eraseIdx axis) ≠ 0
              rw [hrs, List.eraseIdx_set_eq]
              intro h; rw [h] at h0; simp at h0))
            (hF.imp (fun h => ⟨by show (diffStep sub subF mem v axis zero).shape.length = 1
                                  rw [hrs]; simpa using h.1, rfl⟩) id)
          refine ih.congr ?_
          exact Nd.Same.differencesN sub n hsame (by
            show axis < (diffStep sub subF mem v axis zero).shape.length
            rw [hrs]; simpa using hax)
        · rw [if_neg hn]
          have : n = 0 := by omega
          subst this
          exact hstep

/-! ### The initial entry -/

theorem fresh_rank {s : List Nat} {axis : Nat} (hax : axis < s.length) {idx : List Nat}
    (hi : InShape (s.eraseIdx axis) idx) {j : Nat} (hj : j < s.getD axis 0) :
    byteOffset idx ((cStrides s 1).eraseIdx axis) + j * (cStrides s 1).getD axis 0 = (rank s (idx.insertIdx axis j) : Int) := by
  have h1 := lane_addr (View.WF.fresh s 1) hax hi j
  have h2 := cFlag_addr (View.WF.fresh s 1) rfl (inShape_insertIdx hax hi hj)
  rw [h1] at h2
  simp only [View.fresh] at h2
  rw [Int.mul_comm] at h2
  simpa using h2

theorem consAxis_insert (x : α) (a : Nd α) {axis : Nat} {idx : List Nat} (h : axis ≤ idx.length) (j : Nat) :
    (a.consAxis x axis).get (idx.insertIdx axis j) = if j = 0 then x else a.get (idx.insertIdx axis (j - 1)) := by
  unfold Nd.consAxis
  dsimp only
  rw [getD_insertIdx_self _ _ _ h, set_insertIdx_self _ _ _ _ h]

theorem prependStores_eq {c : Arr α} {nd : Nd α} (hc : c.Is nd) (x : α) {axis : Nat} (hax : axis < c.shape.length)
    (hne : size (c.shape.eraseIdx axis) ≠ 0) (zero : α) :
    prependStores c x axis zero = (indices (c.shape.eraseIdx axis)).flatMap fun idx =>
      (List.range (c.shape.getD axis 0 + 1)).map fun j =>
        (rank (c.shape.set axis (c.shape.getD axis 0 + 1)) (idx.insertIdx axis j),
          (nd.consAxis x axis).get (idx.insertIdx axis j)) := by
  unfold prependStores
  dsimp only
  rw [sizeOf_eq, max_eq_left (by omega)]
  have hod := odometerAll_eq (c.shape.eraseIdx axis)
  unfold odometerAll at hod
  rw [sizeOf_eq] at hod
  rw [hod]
  apply List.flatMap_congr
  intro idx hi
  have hi := mem_indices.1 hi
  have hl := lane_length hax hi
  have hi' : InShape ((c.shape.set axis (c.shape.getD axis 0 + 1)).eraseIdx axis) idx := by
    rw [List.eraseIdx_set_eq]; exact hi
  have hax' : axis < (c.shape.set axis (c.shape.getD axis 0 + 1)).length := by simpa using hax
  have hr : ∀ j, j < c.shape.getD axis 0 + 1 → _ := fun j hj => fresh_rank hax' hi' (j := j) (by rw [getD_set_self hax]; exact hj)
  rw [List.range_succ_eq_map, List.map_cons, List.map_map]
  congr 1
  · rw [consAxis_insert _ _ (by omega), if_pos rfl]
    have := hr 0 (by omega)
    simp only [Nat.cast_zero, Int.zero_mul, Int.add_zero] at this
    rw [this, Int.toNat_natCast]
  · apply List.map_congr_left
    intro j hj
    have hj := List.mem_range.1 hj
    simp only [Function.comp_def]
    rw [consAxis_insert _ _ (by omega), if_neg (by simp)]
    have e1 := hr (j + 1) (by omega)
    push_cast at e1
    rw [e1, Int.toNat_natCast, fresh_rank hax hi hj, Int.toNat_natCast]
    have := hc.at? (idx := idx.insertIdx axis j) (by rw [← hc.1]; exact inShape_insertIdx hax hi hj)
    unfold Arr.at? at this
    rw [getD_of_getElem? this]
    rfl

theorem prependIdentity_eq {c : Arr α} {nd : Nd α} (hc : c.Is nd) (x : α) {axis : Nat} (hax : axis < c.shape.length)
    (zero : α) : (prependIdentity c x axis zero).Is (nd.consAxis x axis) := by
  have hshape : (nd.consAxis x axis).shape = c.shape.set axis (c.shape.getD axis 0 + 1) := by
    simp only [Nd.consAxis, hc.1]
  have hax' : axis < (c.shape.set axis (c.shape.getD axis 0 + 1)).length := by simpa using hax
  have hes : (c.shape.set axis (c.shape.getD axis 0 + 1)).eraseIdx axis = c.shape.eraseIdx axis := by
    rw [List.eraseIdx_set_eq]
  unfold prependIdentity
  dsimp only
  by_cases hlast : axis = c.shape.length - 1
  · rw [if_pos hlast]
    refine ⟨hshape.symm, ?_⟩
    dsimp only
    unfold Nd.toList
    rw [hshape]
    have houter : (if c.shape.length > 1 then sizeOf (c.shape.take (c.shape.length - 1)) else 1) =
        size (c.shape.eraseIdx axis) := by
      have hd : c.shape.drop (axis + 1) = [] := List.drop_eq_nil_of_le (by omega)
      rw [List.eraseIdx_eq_take_drop_succ, hd, List.append_nil, ← hlast, sizeOf_eq]
      split
      · rfl
      · have : axis = 0 := by omega
        subst this; simp [size]
    rw [houter, ← map_rank_indices, List.flatMap_map, ← hes]
    apply writes_lanes hax' _ (by simp [sizeOf_eq])
    intro idx hi'
    rw [hes]
    have hi : InShape (c.shape.eraseIdx axis) idx := by rw [← hes]; exact hi'
    have hl := lane_length hax hi
    have hrank : ∀ (s : List Nat), s.length = c.shape.length → InShape (s.eraseIdx axis) idx → ∀ j,
        rank s (idx.insertIdx axis j) = rank (s.eraseIdx axis) idx * s.getD axis 0 + j := by
      intro s hs hi j
      obtain ⟨i, t, rfl, hiA, htB⟩ := split_lane (by omega) hi
      have hd : s.drop (axis + 1) = [] := List.drop_eq_nil_of_le (by omega)
      rw [rank_insertIdx (by omega) hiA, List.eraseIdx_eq_take_drop_succ, rank_append _ _ hiA.length_eq, hd]
      rw [hd] at htB
      cases t with
      | nil => simp [rank, size]
      | cons => simp [InShape] at htB
    rw [getD_set_self hax, List.range_succ_eq_map, List.map_cons, List.map_map]
    congr 1
    · rw [consAxis_insert _ _ (by omega), if_pos rfl, hrank _ (by simp) hi', hes, getD_set_self hax]; rfl
    · apply List.map_congr_left
      intro j hj
      have hj := List.mem_range.1 hj
      simp only [Function.comp_def]
      rw [consAxis_insert _ _ (by omega), if_neg (by simp), hrank _ (by simp) hi', hes, getD_set_self hax,
        ← hrank c.shape rfl hi j]
      have := hc.at? (idx := idx.insertIdx axis j) (by rw [← hc.1]; exact inShape_insertIdx hax hi hj)
      unfold Arr.at? at this
      rw [getD_of_getElem? this]
      simp only [Prod.mk.injEq]
      exact ⟨by omega, rfl⟩
  · rw [if_neg hlast]
    refine ⟨hshape.symm, ?_⟩
    dsimp only
    unfold Nd.toList
    rw [hshape]
    by_cases hne : size (c.shape.eraseIdx axis) = 0
    · have hz : size (c.shape.set axis (c.shape.getD axis 0 + 1)) = 0 := by rw [size_set_getD hax, hne, Nat.zero_mul]
      rw [size_zero_of_indices hz, List.map_nil, ← List.length_eq_zero_iff, writes_length, sizeOf_eq, hz]
      rfl
    · rw [prependStores_eq hc x hax hne, ← hes]
      apply writes_lanes hax' _ (by simp [sizeOf_eq])
      intro idx hi
      rw [getD_set_self hax]

end Rumpy
