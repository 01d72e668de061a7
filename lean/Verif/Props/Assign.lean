import Verif.Lemmas.Search
import Verif.Spec.Assign
import Verif.Props.Views
/-!
# Parts of C50 and C52: put, put_along_axis, choose, triangle indices
-/

namespace Props
open Spec Rumpy

/-- Different indices of the view are different memory cells. -/
def Separate (v : View) : Prop :=
  ∀ i j, InShape v.shape i → InShape v.shape j → v.addr i = v.addr j → i = j

/-- Memory cells that belong to no element of the view. -/
def Foreign (v : View) (p : Int) : Prop := ∀ i, InShape v.shape i → v.addr i ≠ p

/-- Every freshly created array satisfies `Separate`. -/
theorem fresh_separate (s : List Nat) {item : Nat} (h : 0 < item) : Separate (View.fresh s item) := by
  intro i j hi hj he
  have hi : InShape s i := hi
  have hj : InShape s j := hj
  simp only [View.addr, View.fresh] at he
  rw [byteOffset_cStrides _ _ _ hi.length_eq, byteOffset_cStrides _ _ _ hj.length_eq] at he
  apply rank_inj hi hj
  have : item * rank s i = item * rank s j := by omega
  exact Nat.eq_of_mul_eq_mul_left h this

theorem setElement_denote (mem : Int → α) {v : View} (hs : Separate v) {i : List Nat}
    (hi : InShape v.shape i) (x : α) :
    (v.denote (setElement mem v i x)).toList = (v.denote mem).toList.set (rank v.shape i) x := by
  symm
  apply eq_toList
  · simp [Nd.toList, length_indices, View.denote]
  · intro j hj
    have hj : InShape v.shape j := hj
    show ((v.denote mem).toList.set (rank v.shape i) x)[rank v.shape j]? = some (setElement mem v i x (v.addr j))
    unfold setElement
    by_cases he : j = i
    · subst he
      rw [if_pos rfl, List.getElem?_set_self]
      simpa [Nd.toList, length_indices, View.denote] using rank_lt hj
    · rw [if_neg (fun h => he (hs _ _ hj hi h)), List.getElem?_set_ne (fun h => he (rank_inj hi hj h).symm)]
      exact toList_getElem? (nd := v.denote mem) hj

theorem put_loop (v : View) (hs : Separate v) (values : List α) :
    ∀ (ks : List Nat) (o : Nat) (mem : Int → α), (∀ k ∈ ks, k < size v.shape) →
      let m' := (ks.zipIdx o).foldl (fun m ki =>
        match values[ki.2 % values.length]? with
        | some x => setElement m v (unflattenAux v.shape ki.1).1 x
        | none => m) mem
      (v.denote m').toList = assignFlat (v.denote mem).toList
          ((ks.zipIdx o).filterMap fun ki => (cycled values ki.2).map fun x => (ki.1, x)) ∧
        ∀ p, Foreign v p → m' p = mem p
  | [], o, mem, _ => by simp [assignFlat]
  | k :: ks, o, mem, h => by
    have hk : k < size v.shape := h k (by simp)
    obtain ⟨h1, h2, _⟩ := unflattenAux_spec (s := v.shape) (r := k) (by omega)
    rw [Nat.mod_eq_of_lt hk] at h2
    have h' : ∀ k ∈ ks, k < size v.shape := fun k' hk' => h k' (by simp [hk'])
    simp only [List.zipIdx_cons, List.foldl_cons, List.filterMap_cons, cycled]
    cases hv : values[o % values.length]? with
    | none =>
      have ih := put_loop v hs values ks (o + 1) mem h'
      simpa [cycled] using ih
    | some x =>
      have ih := put_loop v hs values ks (o + 1) (setElement mem v (unflattenAux v.shape k).1 x) h'
      simp only [cycled] at ih
      refine ⟨?_, ?_⟩
      · rw [ih.1, setElement_denote mem hs h1, h2]
        simp [assignFlat]
      · intro p hp
        rw [ih.2 p hp]
        unfold setElement
        rw [if_neg (fun h => hp _ h1 h.symm)]

/-- C52: `put(a, idx, values)`, with at least one value and every index within the array (negative
ones counted from the end), assigns the values, repeated as needed, at the flat positions in
order; nothing outside the array changes. -/
theorem C52_put (mem : Int → α) (v : View) (hs : Separate v) (idx : List Int) (ks : List Nat)
    (values : List α) (hv : values ≠ [])
    (hk : List.Forall₂ (fun i k => pyIndex (size v.shape) i = some k) idx ks) :
    (put mem v idx values).2 = .ok () ∧
    (v.denote (put mem v idx values).1).toList = assignFlat (v.denote mem).toList
      (ks.zipIdx.filterMap fun kj => (cycled values kj.2).map fun x => (kj.1, x)) ∧
    ∀ p, Foreign v p → (put mem v idx values).1 p = mem p := by
  unfold put
  by_cases he : idx = []
  · subst he
    cases hk
    simp [assignFlat]
  · rw [if_neg he]
    have hm : (idx.mapM fun i => normalizeIdx i (Rumpy.sizeOf v.shape)) = some ks := by
      rw [mapM_some_iff]
      simpa [normalizeIdx_eq, sizeOf_eq] using hk
    rw [hm]
    dsimp only
    rw [if_neg hv]
    have hlt : ∀ k ∈ ks, k < size v.shape := by
      intro k hkm
      clear hm he
      induction hk with
      | nil => simp at hkm
      | cons h _ ih =>
        rcases List.mem_cons.1 hkm with rfl | hkm
        · exact pyIndex_lt h
        · exact ih hkm
    exact ⟨rfl, put_loop v hs values ks 0 mem hlt⟩

/-- C52: every value of the cycle exists, so no index of `put` is skipped. -/
theorem C52_put_every_index (values : List α) (hv : values ≠ []) (j : Nat) : (cycled values j).isSome := by
  have : 0 < values.length := List.length_pos_iff.2 hv
  simp [cycled, Nat.mod_lt _ this]

/-- C52: `put` with an index outside the array is an error and changes nothing. -/
theorem C52_put_error (mem : Int → α) (v : View) (idx : List Int) (values : List α)
    (h : ∃ i ∈ idx, pyIndex (size v.shape) i = none) : put mem v idx values = (mem, .error) := by
  obtain ⟨i, hi, hn⟩ := h
  unfold put
  rw [if_neg (by rintro rfl; simp at hi)]
  have hm : (idx.mapM fun i => normalizeIdx i (Rumpy.sizeOf v.shape)) = none := by
    rw [← Option.not_isSome_iff_eq_none, mapM_isSome_iff]
    intro hall
    have := hall i hi
    rw [normalizeIdx_eq, sizeOf_eq, hn] at this
    simp at this
  rw [hm]

/-- C52 fails for an empty list of values: NumPy leaves the array unchanged, the code panics
(`i % values.len()`). -/
theorem C52_put_no_values_counterexample :
    ∃ (mem : Int → Int) (v : View), Separate v ∧ (put mem v [0] []).2 = .panic := by
  refine ⟨fun p => p, ⟨0, [2], [8], 8, true, true⟩, ?_, by decide⟩
  intro i j hi hj h
  match i, j, hi, hj with
  | [a], [b], _, _ => simp [View.addr, byteOffset] at h; simp; omega

/-! #### put_along_axis -/

theorem setElement_get (mem : Int → α) {v : View} (hs : Separate v) {i : List Nat}
    (hi : InShape v.shape i) (x : α) {j : List Nat} (hj : InShape v.shape j) :
    setElement mem v i x (v.addr j) = if j = i then x else mem (v.addr j) := by
  unfold setElement
  by_cases he : j = i
  · subst he; simp
  · rw [if_neg (fun h => he (hs _ _ hj hi h)), if_neg he]

theorem assign_congr {a b : Nd α} {s : List Nat} (h : ∀ j, InShape s j → a.get j = b.get j) :
    ∀ (ix : List (List Nat × α)) (j : List Nat), InShape s j → (a.assign ix).get j = (b.assign ix).get j := by
  intro ix
  induction ix generalizing a b with
  | nil => exact h
  | cons p ix ih =>
    intro j hj
    simp only [Nd.assign, List.foldl_cons]
    refine ih (a := ⟨a.shape, fun i => if i = p.1 then p.2 else a.get i⟩)
      (b := ⟨b.shape, fun i => if i = p.1 then p.2 else b.get i⟩) ?_ j hj
    intro k hk
    dsimp only
    rw [h k hk]

theorem putAlong_loop (v : View) (hs : Separate v) (I : Nd Int) (vals : Nd α) (axis : Nat) (K : List Nat → Nat) :
    ∀ (is : List (List Nat)) (mem : Int → α),
      (∀ i ∈ is, pyIndex (v.shape.getD axis 0) (I.get i) = some (K i)) →
      (∀ i ∈ is, InShape v.shape (i.set axis (K i))) →
      (putAlongLoop v I vals axis is mem).2 = .ok () ∧
      (∀ j, InShape v.shape j → (v.denote (putAlongLoop v I vals axis is mem).1).get j =
        ((v.denote mem).assign (is.map fun i => (i.set axis (K i), vals.get i))).get j) ∧
      ∀ p, Foreign v p → (putAlongLoop v I vals axis is mem).1 p = mem p
  | [], mem, _, _ => by simp [putAlongLoop, Nd.assign]
  | i :: is, mem, h1, h2 => by
    have hi := h2 i (by simp)
    obtain ⟨a1, a2, a3⟩ := putAlong_loop v hs I vals axis K is
      (setElement mem v (i.set axis (K i)) (vals.get i))
      (fun i' h => h1 i' (by simp [h])) (fun i' h => h2 i' (by simp [h]))
    unfold putAlongLoop
    rw [normalizeIdx_eq, h1 i (by simp)]
    dsimp only
    refine ⟨a1, ?_, ?_⟩
    · intro j hj
      rw [a2 j hj]
      simp only [List.map_cons]
      show _ = (Nd.assign ⟨_, _⟩ _).get j
      refine assign_congr (s := v.shape) ?_ _ j hj
      intro k hk
      exact setElement_get mem hs hi _ hk
    · intro p hp
      rw [a3 p hp]
      unfold setElement
      rw [if_neg (fun h => hp _ hi h.symm)]

/-- C52: `put_along_axis` with compatible shapes and every index within the axis assigns
`values[i]` at `i` with its axis coordinate replaced by the index, in row-major order, and changes
nothing else. -/
theorem C52_put_along_axis (mem : Int → α) (v : View) (hs : Separate v) (I : Nd Int) (vals : Nd α) (axis : Nat)
    (hax : axis < v.shape.length) (hl : I.shape.length = v.shape.length) (hv : vals.shape = I.shape)
    (hsh : ∀ d, d < v.shape.length → d ≠ axis → v.shape.getD d 0 = I.shape.getD d 0)
    (K : List Nat → Nat)
    (hk : ∀ i, InShape I.shape i → pyIndex (v.shape.getD axis 0) (I.get i) = some (K i)) :
    (putAlongAxis mem v I vals axis).2 = .ok () ∧
    (∀ j, InShape v.shape j → (v.denote (putAlongAxis mem v I vals axis).1).get j =
      ((v.denote mem).assign ((indices I.shape).map fun i => (i.set axis (K i), vals.get i))).get j) ∧
    ∀ p, Foreign v p → (putAlongAxis mem v I vals axis).1 p = mem p := by
  unfold putAlongAxis
  rw [if_neg (by rw [hv]; simp [hl]; omega)]
  have hall : ((List.range v.shape.length).all fun i => i == axis || v.shape.getD i 0 == I.shape.getD i 0) = true := by
    rw [List.all_eq_true]
    intro d hd
    by_cases he : d = axis
    · simp [he]
    · simp only [Bool.or_eq_true, beq_iff_eq]
      exact Or.inr (hsh d (List.mem_range.1 hd) he)
  rw [hall]
  simp only [Bool.not_true, Bool.false_eq_true, if_false]
  rw [odometerAll_eq]
  refine putAlong_loop v hs I vals axis K _ mem (fun i hi => hk i (mem_indices.1 hi)) ?_
  intro i hi
  have hi := mem_indices.1 hi
  have hik := pyIndex_lt (hk i hi)
  rw [inShape_iff_getD] at hi ⊢
  refine ⟨by simp [hi.1, hl], fun d hd => ?_⟩
  by_cases he : d = axis
  · subst he
    rw [List.getD, List.getElem?_set_self (by omega)]
    exact hik
  · have := hi.2 d (by omega)
    rw [hsh d hd he]
    simpa [List.getD, List.getElem?_set_ne (Ne.symm he)] using this

/-- C52 fails for an error in `put_along_axis`: an index outside the axis is reported after earlier
elements have been stored, and these stores remain. -/
theorem C52_put_along_axis_error_counterexample :
    ∃ (mem : Int → Int) (v : View) (I : Nd Int) (vals : Nd Int),
      (putAlongAxis mem v I vals 0).2 = .error ∧ (putAlongAxis mem v I vals 0).1 0 ≠ mem 0 := by
  refine ⟨fun _ => 0, ⟨0, [3], [8], 8, true, true⟩, ⟨[2], fun i => if i = [0] then 0 else 7⟩, ⟨[2], fun _ => 5⟩, ?_⟩
  decide

example : (let v : View := ⟨0, [3], [8], 8, true, true⟩
    (v.denote (put (fun p => p) v [0, -1, 0] [50, 60]).1).toList) = ([50, 8, 60] : List Int) := by decide
example : (let v : View := ⟨0, [2, 2], [16, 8], 8, true, true⟩
    (v.denote (putAlongAxis (fun p => p) v ⟨[2, 1], fun i => if i = [0, 0] then 1 else -2⟩ ⟨[2, 1], fun i => 100 + i.sum⟩ 1).1).toList)
    = ([0, 100, 101, 24] : List Int) := by decide

/-! #### choose -/

/-- C52: `choose(I, choices)` succeeds exactly when there is a choice, all choices have the shape of
`I` and every entry of `I` is the number of a choice. -/
theorem C52_choose_succeeds_iff (zero : α) (I : Nd Int) (choices : List (Nd α)) :
    (choose zero I choices).isSome ↔ choices ≠ [] ∧ (∀ c ∈ choices, c.shape = I.shape) ∧
      ∀ i, InShape I.shape i → 0 ≤ I.get i ∧ I.get i < choices.length := by
  unfold choose
  by_cases h1 : choices = []
  · simp [h1]
  rw [if_neg h1]
  by_cases h2 : (choices.all fun c => c.shape == I.shape) = true
  · rw [h2]
    simp only [Bool.not_true, Bool.false_eq_true, if_false]
    rw [show ∀ (x : Option (List (Nat × α))), (x >>= fun ws => some (⟨I.shape, writes ws (List.replicate (Rumpy.sizeOf I.shape) zero)⟩ : Arr α)).isSome = x.isSome
      from fun x => by cases x <;> rfl]
    rw [mapM_isSome_iff]
    have h2' : ∀ c ∈ choices, c.shape = I.shape := by simpa [List.all_eq_true] using h2
    constructor
    · intro h
      refine ⟨h1, h2', fun i hi => ?_⟩
      have hmem : i ∈ odometerAll I.shape := by rw [odometerAll_eq]; exact mem_indices.2 hi
      obtain ⟨n, hn, he⟩ := List.getElem_of_mem hmem
      have := h (i, n) (by
        rw [List.mem_zipIdx_iff_getElem?]
        exact List.getElem?_eq_some_iff.2 ⟨hn, he⟩)
      dsimp only at this
      by_cases hneg : I.get i < 0
      · rw [if_pos hneg] at this; simp at this
      · rw [if_neg hneg] at this
        simp at this
        omega
    · rintro ⟨_, _, h⟩ ⟨i, n⟩ hin
      have hi : InShape I.shape i := by
        have := List.fst_mem_of_mem_zipIdx hin
        rw [odometerAll_eq] at this
        exact mem_indices.1 this
      obtain ⟨ha, hb⟩ := h i hi
      dsimp only
      rw [if_neg (by omega)]
      simp
      omega
  · have h2f : (choices.all fun c => c.shape == I.shape) = false := by simpa using h2
    rw [h2f]
    simp only [Bool.not_false, if_true, Option.isSome_none, Bool.false_eq_true, false_iff]
    rintro ⟨_, h, _⟩
    exact h2 (by simpa [List.all_eq_true] using h)

/-- C52: the element of `choose(I, choices)` at `i` is `choices[I[i]][i]`. -/
theorem C52_choose (zero : α) (I : Nd Int) (choices : List (Nd α)) (r : Arr α) (d : Nd α)
    (h : choose zero I choices = some r) :
    r.Is ⟨I.shape, fun i => (choices.getD (I.get i).toNat d).get i⟩ := by
  have hs := (C52_choose_succeeds_iff zero I choices).1 (by rw [h]; rfl)
  unfold choose at h
  rw [if_neg hs.1] at h
  have h2 : (choices.all fun c => c.shape == I.shape) = true := by
    simpa [List.all_eq_true] using hs.2.1
  rw [h2] at h
  simp only [Bool.not_true, Bool.false_eq_true, if_false] at h
  have hm : ((odometerAll I.shape).zipIdx.mapM fun (io : List Nat × Nat) =>
      let k := I.get io.1
      if k < 0 then none else (choices[k.toNat]?).map fun c => (io.2, c.get io.1)) =
      some ((odometerAll I.shape).zipIdx.map fun (io : List Nat × Nat) => (io.2, (choices.getD (I.get io.1).toNat d).get io.1)) := by
    rw [mapM_some_iff, List.forall₂_map_right_iff, List.forall₂_same]
    rintro ⟨i, n⟩ hin
    have hi : InShape I.shape i := by
      have := List.fst_mem_of_mem_zipIdx hin
      rw [odometerAll_eq] at this
      exact mem_indices.1 this
    obtain ⟨ha, hb⟩ := hs.2.2 i hi
    dsimp only
    have hlt : (I.get i).toNat < choices.length := by omega
    rw [if_neg (by omega), List.getElem?_eq_getElem hlt, List.getD_eq_getElem _ _ hlt]
    rfl
  rw [hm] at h
  obtain rfl := Option.some.inj h
  refine ⟨rfl, ?_⟩
  show writes _ _ = _
  rw [writes_odometer _ (fun i => (choices.getD (I.get i).toNat d).get i) _ (by simp [sizeOf_eq])]
  rfl

example : choose 0 ⟨[3], fun i => if i = [1] then 0 else 1⟩ [⟨[3], fun i => i.sum⟩, ⟨[3], fun i => 10 + i.sum⟩]
    = some ⟨[3], [10, 1, 12]⟩ := by decide

/-! ### C50: diagonal and triangle indices -/

/-- The pairs (row, column) of an `n × m` matrix in row-major order. -/
def cells (n m : Nat) : List (Nat × Nat) := (List.range n).flatMap fun i => (List.range m).map fun j => (i, j)

theorem range_filter_lt (m : Nat) (b : Nat) : (List.range m).filter (fun j => decide (j < b)) = List.range (min b m) := by
  induction m with
  | zero => simp
  | succ m ih =>
    rw [List.range_succ, List.filter_append, ih]
    by_cases h : m < b
    · rw [List.filter_cons_of_pos (by simpa using h)]
      rw [show min b (m + 1) = m + 1 by omega, show min b m = m by omega, List.range_succ]; rfl
    · rw [List.filter_cons_of_neg (by simpa using h)]
      rw [show min b (m + 1) = b by omega, show min b m = b by omega]; simp

theorem range_filter_ge (m : Nat) (b : Nat) : (List.range m).filter (fun j => decide (b ≤ j)) = List.range' b (m - b) := by
  induction m with
  | zero => simp
  | succ m ih =>
    rw [List.range_succ, List.filter_append, ih]
    by_cases h : b ≤ m
    · rw [List.filter_cons_of_pos (by simpa using h), show m + 1 - b = (m - b) + 1 by omega, List.range'_concat]
      simp; omega
    · rw [List.filter_cons_of_neg (by simpa using h), show m + 1 - b = 0 by omega, show m - b = 0 by omega]
      simp

/-- C50: `tril_indices(n, k, m)` lists, in row-major order, the cells on or below diagonal `k`. -/
theorem C50_tril_indices (n : Nat) (k : Int) (m : Nat) :
    trilIndices n k m = (cells n m).filter fun c => decide ((c.2 : Int) ≤ c.1 + k) := by
  unfold trilIndices cells
  rw [List.filter_flatMap]
  apply List.flatMap_congr
  intro i _
  rw [List.filter_map]
  dsimp only [Function.comp_def]
  have : (fun j : Nat => decide ((j : Int) ≤ (i : Int) + k)) = fun j => decide (j < ((i : Int) + k + 1).toNat) := by
    funext j; simp only [decide_eq_decide]; omega
  rw [this, range_filter_lt]
  congr 2
  omega

/-- C50: `triu_indices(n, k, m)` lists, in row-major order, the cells on or above diagonal `k`. -/
theorem C50_triu_indices (n : Nat) (k : Int) (m : Nat) :
    triuIndices n k m = (cells n m).filter fun c => decide ((c.1 : Int) + k ≤ c.2) := by
  unfold triuIndices cells
  rw [List.filter_flatMap]
  apply List.flatMap_congr
  intro i _
  rw [List.filter_map]
  have : (fun j : Nat => decide ((i : Int) + k ≤ (j : Int))) = fun j => decide (((i : Int) + k).toNat ≤ j) := by
    funext j; simp only [decide_eq_decide]; omega
  simp only [Function.comp_def]
  rw [this, range_filter_ge]
  rw [show (max ((i : Int) + k) 0).toNat = ((i : Int) + k).toNat by omega]

/-- C50: the cells below diagonal `k` and those on or above it partition the matrix. -/
theorem C50_tril_triu_partition (n : Nat) (k : Int) (m : Nat) (c : Nat × Nat) (hc : c.1 < n ∧ c.2 < m) :
    (c ∈ trilIndices n (k - 1) m ∧ c ∉ triuIndices n k m) ∨ (c ∉ trilIndices n (k - 1) m ∧ c ∈ triuIndices n k m) := by
  have hm : c ∈ cells n m := by
    simp only [cells, List.mem_flatMap, List.mem_range, List.mem_map]
    exact ⟨c.1, hc.1, c.2, hc.2, rfl⟩
  rw [C50_tril_indices, C50_triu_indices]
  simp only [List.mem_filter, hm, true_and, decide_eq_true_eq]
  omega

/-- C50: `diag_indices(n, ndim)` gives `ndim` copies of `0 … n-1`. -/
theorem C50_diag_indices (n ndim : Nat) :
    (diagIndices n ndim).length = ndim ∧
      ∀ d j, d < ndim → j < n → ((diagIndices n ndim).getD d []).getD j 0 = j := by
  refine ⟨by simp [diagIndices], fun d j hd hj => ?_⟩
  simp [diagIndices, List.getD, List.getElem?_replicate, hd, hj]

example : trilIndices 3 0 2 = [(0, 0), (1, 0), (1, 1), (2, 0), (2, 1)] := by decide
example : triuIndices 3 (-1) 2 = [(0, 0), (0, 1), (1, 0), (1, 1), (2, 1)] := by decide

end Props
