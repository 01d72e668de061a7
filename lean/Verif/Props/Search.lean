import Verif.Lemmas.Search
import Verif.Props.Views
/-!
# C25 – C27 and parts of C50, C52: searching, index conversion, bit packing, put and choose
-/

namespace Props
open Spec Rumpy

/-! ### C25: searchsorted and digitize -/

theorem insertLeft_unique [LinearOrder α] {a : List α} {x : α} {j k : Nat}
    (hj : InsertLeft a x j) (hk : InsertLeft a x k) : j = k := by
  have key : ∀ {j k : Nat}, InsertLeft a x j → InsertLeft a x k → ¬ j < k := by
    intro j k hj hk hlt
    have hja : j < a.length := by have := hk.1; omega
    have h1 : a[j] ∈ a.take k := List.mem_take_iff_getElem.2 ⟨j, by omega, rfl⟩
    have h2 : a[j] ∈ a.drop j := List.mem_drop_iff_getElem.2 ⟨0, by omega, by simp⟩
    exact absurd (hk.2.1 _ h1) (not_lt.2 (hj.2.2 _ h2))
  have := key hj hk
  have := key hk hj
  omega

theorem insertRight_unique [LinearOrder α] {a : List α} {x : α} {j k : Nat}
    (hj : InsertRight a x j) (hk : InsertRight a x k) : j = k := by
  have key : ∀ {j k : Nat}, InsertRight a x j → InsertRight a x k → ¬ j < k := by
    intro j k hj hk hlt
    have hja : j < a.length := by have := hk.1; omega
    have h1 : a[j] ∈ a.take k := List.mem_take_iff_getElem.2 ⟨j, by omega, rfl⟩
    have h2 : a[j] ∈ a.drop j := List.mem_drop_iff_getElem.2 ⟨0, by omega, by simp⟩
    exact absurd (hj.2.2 _ h2) (not_lt.2 (hk.2.1 _ h1))
  have := key hj hk
  have := key hk hj
  omega

/-- C25: for a sorted vector (any strides) `searchsorted` returns, at each index of `v`, the
insertion point of that value on the requested side. -/
theorem C25_searchsorted [LinearOrder α] (mem : Int → α) (a : View) (hw : a.WF) {n : Nat} (hs : a.shape = [n])
    (hsort : (a.denote mem).toList.Pairwise (· ≤ ·)) (v : Nd α) (left : Bool) :
    ∃ pos : List Nat → Nat, ∃ r, searchsorted compare mem a v left = some r ∧ r.Is ⟨v.shape, pos⟩ ∧
      ∀ idx, if left then InsertLeft (a.denote mem).toList (v.get idx) (pos idx)
        else InsertRight (a.denote mem).toList (v.get idx) (pos idx) := by
  have hlen : (a.denote mem).toList.length = n := by
    rw [Nd.length_toList]; simp [View.denote, hs, size]
  have haddr : ∀ i, i < n →
      (a.denote mem).toList[i]? = some (mem (a.offset + i * (if a.cFlag then (a.item : Int) else a.strides.getD 0 0))) := by
    intro i hi
    have hin : InShape a.shape [i] := by rw [hs]; exact ⟨hi, trivial⟩
    have h1 := toList_getElem? (nd := a.denote mem) (idx := [i]) hin
    have h2 : rank (a.denote mem).shape [i] = i := by simp [View.denote, hs, rank, size]
    rw [h2] at h1
    rw [h1]
    simp only [View.denote, View.addr, Option.some.injEq]
    congr 2
    by_cases hc : a.cFlag = true
    · rw [isC_sound hw.len (hw.c hc) hin, hs]
      simp [hc, rank, size, Int.mul_comm]
    · have hl := hw.len
      rw [hs] at hl
      obtain ⟨st, hst⟩ := List.length_eq_one_iff.1 hl
      simp [hc, hst, byteOffset]
  unfold searchsorted
  rw [if_neg (by simp [hs])]
  dsimp only
  refine ⟨fun idx => bsearch (fun mid => Rumpy.goRight left (compare (mem (a.offset + mid *
      (if a.cFlag then (a.item : Int) else a.strides.getD 0 0))) (v.get idx))) 0 (Rumpy.sizeOf a.shape), _, rfl,
    ⟨rfl, ?_⟩, ?_⟩
  · simp [Nd.toList]
  · intro idx
    have hsz : Rumpy.sizeOf a.shape = n := by rw [sizeOf_eq]; simp [hs, size]
    dsimp only
    rw [hsz]
    set p : α → Bool := fun y => Rumpy.goRight left (compare y (v.get idx)) with hp
    -- replace the reads by reads of the list
    have hmono : (a.denote mem).toList.Pairwise fun y z => p z = true → p y = true := by
      apply hsort.imp
      intro y z hyz hz
      rw [hp] at hz ⊢
      cases left
      · simp only [Rumpy.goRight, Bool.false_eq_true, if_false, bne_iff_ne, ne_eq, compare_gt_iff_gt, not_lt] at hz ⊢
        exact le_trans hyz hz
      · simp only [Rumpy.goRight, if_true, beq_iff_eq, compare_lt_iff_lt] at hz ⊢
        exact lt_of_le_of_lt hyz hz
    have hb := bsearch_list hmono
    rw [bsearch_congr (Q := fun i => (a.denote mem).toList[i]?.any p) 0 n (fun i hi => by
      rw [haddr i hi]; rfl)]
    rw [hlen] at hb
    obtain ⟨h1, h2, h3⟩ := hb
    cases left
    · refine ⟨by rw [hlen]; exact h1, fun y hy => ?_, fun y hy => ?_⟩
      · have := h2 y hy
        simpa [hp, Rumpy.goRight, compare_lt_iff_lt, compare_gt_iff_gt] using this
      · have := h3 y hy
        simpa [hp, Rumpy.goRight, compare_lt_iff_lt, compare_gt_iff_gt] using this
    · refine ⟨by rw [hlen]; exact h1, fun y hy => ?_, fun y hy => ?_⟩
      · have := h2 y hy
        simpa [hp, Rumpy.goRight, compare_lt_iff_lt, compare_gt_iff_gt] using this
      · have := h3 y hy
        simpa [hp, Rumpy.goRight, compare_lt_iff_lt, compare_gt_iff_gt] using this

/-- The hypotheses hold for a reversed view of 3, 2, 1, 0 in memory. -/
example : ((⟨24, [4], [-8], 8, false, false⟩ : View).denote fun p => 3 - p / 8).toList.Pairwise (· ≤ ·) := by decide
example : searchsorted compare (fun p : Int => 3 - p / 8) ⟨24, [4], [-8], 8, false, false⟩ ⟨[2], fun i => i.getD 0 0⟩ true
    = some ⟨[2], [0, 1]⟩ := by simp [searchsorted, bsearch, Rumpy.goRight, Nd.toList, indices, Rumpy.sizeOf]; decide

/-- C25: `a` must be one-dimensional. -/
theorem C25_searchsorted_error (cmp : α → α → Ordering) (mem : Int → α) (a : View) (v : Nd α) (left : Bool)
    (h : a.shape.length ≠ 1) : searchsorted cmp mem a v left = none := by
  unfold searchsorted; rw [if_pos h]

/-- C25: `digitize` with increasing bins: `bins[i-1] <= x < bins[i]` (right = False) or
`bins[i-1] < x <= bins[i]` (right = True). -/
theorem C25_digitize_increasing [LinearOrder α] (bins : List α) (h : bins.Pairwise (· ≤ ·)) (x : α) :
    InsertRight bins x (digitize bins false x) ∧ InsertLeft bins x (digitize bins true x) := by
  have hd : (if h : 2 ≤ bins.length then decide (bins[bins.length - 1] < bins[0]) else false) = false := by
    split
    · rename_i h2
      rw [decide_eq_false_iff_not, not_lt]
      exact List.pairwise_iff_getElem.1 h 0 _ (by omega) (by omega) (by omega)
    · rfl
  constructor
  · unfold digitize
    dsimp only
    rw [hd]
    simp only [Bool.false_eq_true, if_false]
    have := bsearch_list (l := bins) (p := fun y => decide (y ≤ x))
      (h.imp fun {y z} hyz hz => by simp only [decide_eq_true_eq] at hz ⊢; exact le_trans hyz hz)
    obtain ⟨h1, h2, h3⟩ := this
    exact ⟨h1, fun y hy => by simpa using h2 y hy, fun y hy => by simpa using h3 y hy⟩
  · unfold digitize
    dsimp only
    rw [hd]
    simp only [Bool.false_eq_true, if_false, if_true]
    have := bsearch_list (l := bins) (p := fun y => decide (y < x))
      (h.imp fun {y z} hyz hz => by simp only [decide_eq_true_eq] at hz ⊢; exact lt_of_le_of_lt hyz hz)
    obtain ⟨h1, h2, h3⟩ := this
    exact ⟨h1, fun y hy => by simpa using h2 y hy, fun y hy => by simpa using h3 y hy⟩

example : ([1, 2, 2, 5] : List Int).Pairwise (· ≤ ·) := by decide

/-- C25, partial: with decreasing bins `digitize` is right for every `x` that is not itself a bin
edge: the bins before the result are larger, the others smaller.  At an edge the sides are
swapped (next theorem). -/
theorem C25_digitize_decreasing_partial [LinearOrder α] (bins : List α) (h : bins.Pairwise (· ≥ ·))
    (h2 : 2 ≤ bins.length) (hlt : bins[bins.length - 1] < bins[0]) (x : α) (hx : x ∉ bins) (right : Bool) :
    (∀ y ∈ bins.take (digitize bins right x), x < y) ∧ (∀ y ∈ bins.drop (digitize bins right x), y < x) := by
  have hd : (if h : 2 ≤ bins.length then decide (bins[bins.length - 1] < bins[0]) else false) = true := by
    rw [dif_pos h2, decide_eq_true_eq]; exact hlt
  have hr : bins.reverse.Pairwise (· ≤ ·) := by
    rw [List.pairwise_reverse]; exact h
  have hne : ∀ y ∈ bins, y ≠ x := fun y hy e => hx (e ▸ hy)
  have hk : ∀ (p : α → Bool), (∀ y ∈ bins, p y = decide (y < x)) →
      (bins.reverse.Pairwise fun y z => p z = true → p y = true) →
      let k := bins.length - bsearch (fun i => bins.reverse[i]?.any p) 0 bins.length
      (∀ y ∈ bins.take k, x < y) ∧ (∀ y ∈ bins.drop k, y < x) := by
    intro p hp hpw k
    have hb := bsearch_list hpw
    rw [List.length_reverse] at hb
    obtain ⟨h1, h2, h3⟩ := hb
    constructor
    · intro y hy
      have hmem : y ∈ bins := List.mem_of_mem_take hy
      have : y ∈ bins.reverse.drop (bsearch (fun i => bins.reverse[i]?.any p) 0 bins.length) := by
        rw [List.drop_reverse, List.mem_reverse]; exact hy
      have h4 := h3 y this
      rw [hp y hmem] at h4
      have h5 : x ≤ y := by simpa using h4
      exact lt_of_le_of_ne h5 (Ne.symm (hne y hmem))
    · intro y hy
      have hmem : y ∈ bins := List.mem_of_mem_drop hy
      have : y ∈ bins.reverse.take (bsearch (fun i => bins.reverse[i]?.any p) 0 bins.length) := by
        rw [List.take_reverse, List.mem_reverse]; exact hy
      have h4 := h2 y this
      rw [hp y hmem] at h4
      simpa using h4
  unfold digitize
  dsimp only
  rw [hd]
  simp only [if_true]
  cases right
  · simp only [Bool.false_eq_true, if_false]
    exact hk (fun y => decide (y < x)) (fun y _ => rfl)
      (hr.imp fun {y z} hyz hz => by simp only [decide_eq_true_eq] at hz ⊢; exact lt_of_le_of_lt hyz hz)
  · simp only [if_true]
    refine hk (fun y => decide (y ≤ x)) (fun y hy => ?_)
      (hr.imp fun {y z} hyz hz => by simp only [decide_eq_true_eq] at hz ⊢; exact le_trans hyz hz)
    simp only [decide_eq_decide]
    exact ⟨fun h => lt_of_le_of_ne h (hne y hy), le_of_lt⟩

/-- C25 fails for decreasing bins at an edge: `digitize(1, [2, 1, 0])` should be 1, because
`bins[0] > 1 >= bins[1]`, and is 2. -/
theorem C25_digitize_decreasing_counterexample :
    digitize [2, 1, 0] false (1 : Int) = 2 ∧ digitize [2, 1, 0] true (1 : Int) = 1 ∧
      ((2 : Int) > 1 ∧ (1 : Int) ≥ 1) := by
  refine ⟨?_, ?_, by decide⟩ <;> simp [digitize, bsearch]

/-! ### C26: unravel_index and ravel_multi_index -/

/-- C26: `unravel_index` in C order returns, for each flat index, the multi-index of that
row-major position; in F order, of that column-major position. -/
theorem C26_unravel (idx : List Int) (s : List Nat) (hs : s ≠ []) (fOrder : Bool)
    (h : ∀ i ∈ idx, 0 ≤ i ∧ i < size s) :
    ∃ r, unravelIndex idx s fOrder = .ok r ∧ r.length = idx.length ∧
      ∀ k (hk : k < idx.length), InShape s (r.getD k []) ∧
        ((if fOrder then rankF s (r.getD k []) else rank s (r.getD k []) : Nat) : Int) = idx[k] := by
  unfold unravelIndex
  have : (idx.any fun i => decide (i < 0 ∨ (Rumpy.sizeOf s : Int) ≤ i)) = false := by
    rw [List.any_eq_false]
    intro i hi
    have := h i hi
    rw [sizeOf_eq]
    simp only [decide_eq_true_eq]
    omega
  rw [this]
  simp only [Bool.false_eq_true, if_false]
  cases fOrder
  · simp only [Bool.false_eq_true, if_false, hs]
    refine ⟨_, rfl, by simp, fun k hk => ?_⟩
    have hb := h _ (List.getElem_mem hk)
    have := unravelC_spec (s := s) (r := idx[k].toNat) (by omega)
    rw [List.getD_eq_getElem _ _ (by simpa using hk), List.getElem_map]
    exact ⟨this.1, by rw [this.2]; omega⟩
  · simp only [if_true]
    refine ⟨_, rfl, by simp, fun k hk => ?_⟩
    have hb := h _ (List.getElem_mem hk)
    have := unravelF_spec (s := s) (r := idx[k].toNat) (by omega)
    rw [List.getD_eq_getElem _ _ (by simpa using hk), List.getElem_map]
    exact ⟨this.1, by rw [this.2]; omega⟩

/-- C26: any index outside the array is an error. -/
theorem C26_unravel_error (idx : List Int) (s : List Nat) (fOrder : Bool)
    (h : ∃ i ∈ idx, ¬ (0 ≤ i ∧ i < size s)) : unravelIndex idx s fOrder = .error := by
  unfold unravelIndex
  rw [if_pos]
  rw [List.any_eq_true]
  obtain ⟨i, hi, hn⟩ := h
  refine ⟨i, hi, ?_⟩
  rw [sizeOf_eq, decide_eq_true_eq]
  omega

example : unravelIndex [5, 0] [2, 3] false = .ok [[1, 2], [0, 0]] := by decide
example : unravelIndex [5, 1] [2, 3] true = .ok [[1, 2], [1, 0]] := by decide

/-- C26 fails for a 0-d shape: NumPy returns the empty tuple for index 0, the code panics. -/
theorem C26_unravel_0d_counterexample : unravelIndex [0] [] false = .panic := by decide

/-- C26: `ravel_multi_index` returns the row-major (column-major) position of a multi-index inside
the shape, in every mode. -/
theorem C26_ravel (s idx : List Nat) (hs : s ≠ []) (h : InShape s idx) (mode : RavelMode) (fOrder : Bool) :
    ravelMultiIndex (idx.map Int.ofNat) s mode fOrder =
      .ok ((if fOrder then rankF s idx else rank s idx : Nat) : Int) := by
  have hl := h.length_eq
  have hz : List.zipWith (fun (i : Int) (_ : Nat) => i.toNat) (idx.map Int.ofNat) s = idx := by
    apply List.ext_getElem
    · simp [hl]
    · intro k h1 h2; simp
  have hin := (inShape_iff_getD.1 h).2
  have hm : ∀ d, d < s.length → modeIndex mode ((idx.map Int.ofNat).getD d 0) (s.getD d 0) =
      .ok (((fun (i : Int) (_ : Nat) => i.toNat) ((idx.map Int.ofNat).getD d 0) (s.getD d 0) : Nat) : Int) := by
    intro d hd
    have he : (idx.map Int.ofNat).getD d 0 = ((idx.getD d 0 : Nat) : Int) := by
      have hd' : d < idx.length := by omega
      simp [List.getD, List.getElem?_eq_getElem hd']
    rw [he]
    have := hin d hd
    rw [modeIndex_ok (by omega) (by omega)]
    simp
  unfold ravelMultiIndex
  rw [if_neg (by simp [hl]), if_neg hs]
  cases fOrder
  · simp only [Bool.false_eq_true, if_false]
    rw [ravelLoop_C (fun i _ => i.toNat) 0 (by simp [hl]) hm, hz]
    simp
  · simp only [if_true]
    rw [ravelLoop_F (fun i _ => i.toNat) 0 1 (by simp [hl]) hm, hz]
    simp

/-- C26: in mode "raise" anything outside the shape is an error. -/
theorem C26_ravel_raise (s : List Nat) (idx : List Int) (hs : s ≠ []) (fOrder : Bool) :
    ravelMultiIndex idx s .raise fOrder = .error ↔
      ¬ (idx.length = s.length ∧ ∀ d, d < s.length → 0 ≤ idx.getD d 0 ∧ idx.getD d 0 < s.getD d 0) := by
  unfold ravelMultiIndex
  by_cases hl : idx.length = s.length
  · rw [if_neg (by simp [hl]), if_neg hs]
    have hst : (if fOrder then fIdxStrides s 1 else cIdxStrides s).length = s.length := by
      cases fOrder
      · simpa using cIdxStrides_length s
      · simpa using fIdxStrides_length s 1
    obtain ⟨h1, h2⟩ := ravelLoop_raise_isOk (s := s) (idx := idx) 0 hl hst
    simp only [hl, true_and]
    rw [← h2]
    rcases h1 with ⟨k, hk⟩ | he
    · rw [hk]; simp
    · rw [he]; simp
  · rw [if_pos hl]; simp [hl]

/-- C26: in mode "clip" each coordinate is moved to the nearest one inside the axis. -/
theorem C26_ravel_clip (s : List Nat) (idx : List Int) (hs : s ≠ []) (hl : idx.length = s.length)
    (hp : 0 < size s) (fOrder : Bool) :
    ravelMultiIndex idx s .clip fOrder =
      .ok ((if fOrder then rankF s (List.zipWith clipTo idx s) else rank s (List.zipWith clipTo idx s) : Nat) : Int) := by
  have hm : ∀ d, d < s.length → modeIndex .clip (idx.getD d 0) (s.getD d 0) =
      .ok ((clipTo (idx.getD d 0) (s.getD d 0) : Nat) : Int) := by
    intro d hd
    have h0 : s.getD d 0 ≠ 0 := by
      intro h0
      have : 0 ∈ s := by
        rw [List.getD_eq_getElem _ _ hd] at h0
        exact h0 ▸ List.getElem_mem hd
      have := size_eq_zero_iff.2 this
      omega
    simp only [modeIndex, h0, if_false]
    congr 1
    unfold clipTo
    split
    · omega
    · split <;> omega
  unfold ravelMultiIndex
  rw [if_neg (by simp [hl]), if_neg hs]
  cases fOrder
  · simp only [Bool.false_eq_true, if_false]
    rw [ravelLoop_C clipTo 0 hl hm]; simp
  · simp only [if_true]
    rw [ravelLoop_F clipTo 0 1 hl hm]; simp

/-- C26: in mode "wrap" each coordinate is taken modulo the length of its axis. -/
theorem C26_ravel_wrap (s : List Nat) (idx : List Int) (hs : s ≠ []) (hl : idx.length = s.length)
    (hp : 0 < size s) (fOrder : Bool) :
    ravelMultiIndex idx s .wrap fOrder =
      .ok ((if fOrder then rankF s (List.zipWith wrapTo idx s) else rank s (List.zipWith wrapTo idx s) : Nat) : Int) := by
  have hm : ∀ d, d < s.length → modeIndex .wrap (idx.getD d 0) (s.getD d 0) =
      .ok ((wrapTo (idx.getD d 0) (s.getD d 0) : Nat) : Int) := by
    intro d hd
    have h0 : s.getD d 0 ≠ 0 := by
      intro h0
      have : 0 ∈ s := by
        rw [List.getD_eq_getElem _ _ hd] at h0
        exact h0 ▸ List.getElem_mem hd
      have := size_eq_zero_iff.2 this
      omega
    simp only [modeIndex, h0, if_false]
    congr 1
    unfold wrapTo
    have := Int.emod_nonneg (idx.getD d 0) (show ((s.getD d 0 : Nat) : Int) ≠ 0 by omega)
    omega
  unfold ravelMultiIndex
  rw [if_neg (by simp [hl]), if_neg hs]
  cases fOrder
  · simp only [Bool.false_eq_true, if_false]
    rw [ravelLoop_C wrapTo 0 hl hm]; simp
  · simp only [if_true]
    rw [ravelLoop_F wrapTo 0 1 hl hm]; simp

/-- `wrapTo` and `clipTo` are what their names say. -/
theorem wrapTo_spec (i : Int) {n : Nat} (hn : 0 < n) : wrapTo i n < n ∧ ((wrapTo i n : Nat) : Int) % n = i % n := by
  unfold wrapTo
  have h1 := Int.emod_nonneg i (show (n : Int) ≠ 0 by omega)
  have h2 := Int.emod_lt_of_pos i (show (0 : Int) < n by omega)
  refine ⟨by omega, ?_⟩
  rw [Int.toNat_of_nonneg h1, Int.emod_emod_of_dvd _ (dvd_refl _)]

theorem clipTo_spec (i : Int) {n : Nat} (hn : 0 < n) : clipTo i n < n ∧
    ∀ j : Nat, j < n → (i - clipTo i n).natAbs ≤ (i - j).natAbs := by
  unfold clipTo
  split
  · exact ⟨hn, fun j _ => by omega⟩
  · split
    · exact ⟨by omega, fun j _ => by omega⟩
    · exact ⟨by omega, fun j _ => by omega⟩

example : ravelMultiIndex [1, 2] [2, 3] .raise false = .ok 5 := by decide
example : ravelMultiIndex [-1, 7] [2, 3] .clip false = .ok 2 := by decide
example : ravelMultiIndex [-1, 7] [2, 3] .wrap true = .ok 3 := by decide

/-- C26 fails for an axis of length 0: modes "clip" and "wrap" panic instead of raising. -/
theorem C26_ravel_empty_axis_counterexample :
    ravelMultiIndex [0, 0] [2, 0] .clip false = .panic ∧ ravelMultiIndex [0, 0] [2, 0] .wrap false = .panic := by decide

/-- C26: round trip from the flat index. -/
theorem C26_ravel_unravel (s : List Nat) (hs : s ≠ []) (i : Nat) (hi : i < size s) (mode : RavelMode) (fOrder : Bool) :
    ∃ idx, unravelIndex [(i : Int)] s fOrder = .ok [idx] ∧
      ravelMultiIndex (idx.map Int.ofNat) s mode fOrder = .ok i := by
  obtain ⟨r, h1, h2, h3⟩ := C26_unravel [(i : Int)] s hs fOrder (by
    intro j hj; simp at hj; omega)
  obtain ⟨idx, rfl⟩ := List.length_eq_one_iff.1 (by simpa using h2)
  have h4 := h3 0 (by simp)
  simp only [List.getD_cons_zero, List.getElem_cons_zero] at h4
  refine ⟨idx, h1, ?_⟩
  rw [C26_ravel s idx hs h4.1 mode fOrder, h4.2]

/-- C26: round trip from the multi-index. -/
theorem C26_unravel_ravel (s idx : List Nat) (hs : s ≠ []) (h : InShape s idx) (mode : RavelMode) (fOrder : Bool) :
    ∃ i : Int, ravelMultiIndex (idx.map Int.ofNat) s mode fOrder = .ok i ∧
      unravelIndex [i] s fOrder = .ok [idx] := by
  refine ⟨_, C26_ravel s idx hs h mode fOrder, ?_⟩
  have hlt : (if fOrder then rankF s idx else rank s idx) < size s := by
    cases fOrder
    · simpa using rank_lt h
    · simpa using rankF_lt h
  obtain ⟨r, h1, h2, h3⟩ := C26_unravel [((if fOrder then rankF s idx else rank s idx : Nat) : Int)] s hs fOrder (by
    intro j hj
    have : j = ((if fOrder then rankF s idx else rank s idx : Nat) : Int) := by simpa using hj
    omega)
  obtain ⟨idx', rfl⟩ := List.length_eq_one_iff.1 (by simpa using h2)
  have h4 := h3 0 (by simp)
  simp only [List.getD_cons_zero, List.getElem_cons_zero] at h4
  rw [h1]
  congr 2
  cases fOrder
  · simp only [Bool.false_eq_true, if_false] at h4
    exact rank_inj h4.1 h (by exact_mod_cast h4.2)
  · simp only [if_true] at h4
    exact rankF_inj h4.1 h (by exact_mod_cast h4.2)

/-! ### C27: packbits and unpackbits -/

/-- 0/1 as the code stores it. -/
def bitByte (b : Bool) : BitVec 8 := if b then 1#8 else 0#8

theorem packLoop8_props (big : Bool) (bits : List Bool) :
    (packLoop8 big bits 0#8 0).length = (bits.length + 7) / 8 ∧
    ∀ k, k < (bits.length + 7) / 8 → ∀ j, j < 8 →
      ((packLoop8 big bits 0#8 0).getD k 0#8).getLsbD (bitSlot big j) = bits.getD (8 * k + j) false := by
  have := packLoop8_spec big bits 0#8 [] (encodes_nil big) (by simp)
  simp only [List.length_nil, List.nil_append, Nat.zero_add] at this
  exact ⟨this.1, fun k hk => this.2 k (by rw [this.1]; exact hk)⟩

theorem packbitsFlat_eq (big : Bool) (bits : List Bool) :
    packbitsFlat big bits = ⟨[(bits.length + 7) / 8], packLoop8 big bits 0#8 0⟩ := by
  unfold packbitsFlat
  have hl := (packLoop8_props big bits).1
  dsimp only
  split
  · rename_i h0
    have : packLoop8 big bits 0#8 0 = [] := List.length_eq_zero_iff.1 (by rw [hl, h0])
    rw [this, h0]; rfl
  · rw [writes_zipIdx (fun x : BitVec 8 => x) _ _ (by simp [hl])]
    simp

theorem unpackbitsFlat_eq (big : Bool) (bytes : List (BitVec 8)) (count : Option Nat) :
    unpackbitsFlat big bytes count =
      let n := min (count.getD (bytes.length * 8)) (bytes.length * 8)
      ⟨[n], (bytes.flatMap fun b => (List.range 8).map (unpackBit big b)).take n⟩ := by
  unfold unpackbitsFlat
  dsimp only
  split
  · rename_i h0
    rw [h0]; rfl
  · rw [unpackLoop_eq big _ bytes 0 (by omega), Nat.sub_zero,
      writes_zipIdx (fun x : BitVec 8 => x) _ _ (by simp [flatMap8_length])]
    simp

/-- C27: the packed length is the length divided by 8, rounded up; value `8k + j` is bit `j` of
byte `k` counted from the most (big) or least (little) significant end; missing bits are 0. -/
theorem C27_packbits (big : Bool) (bits : List Bool) :
    ∃ bytes, packbitsFlat big bits = ⟨[bytes.length], bytes⟩ ∧ bytes.length = (bits.length + 7) / 8 ∧
      ∀ k j, k < bytes.length → j < 8 →
        (bytes.getD k 0#8).getLsbD (if big then 7 - j else j) = bits.getD (8 * k + j) false := by
  obtain ⟨h1, h2⟩ := packLoop8_props big bits
  refine ⟨packLoop8 big bits 0#8 0, by rw [packbitsFlat_eq, h1], h1, ?_⟩
  intro k j hk hj
  exact h2 k (by rw [← h1]; exact hk) j hj

/-- C27: `unpackbits(packbits(b), count=len(b)) = b`. -/
theorem C27_unpack_pack (big : Bool) (bits : List Bool) :
    unpackbitsFlat big (packbitsFlat big bits).data (some bits.length) = ⟨[bits.length], bits.map bitByte⟩ := by
  obtain ⟨h1, h2⟩ := packLoop8_props big bits
  rw [packbitsFlat_eq, unpackbitsFlat_eq]
  dsimp only [Option.getD_some]
  have hmin : min bits.length ((packLoop8 big bits 0#8 0).length * 8) = bits.length := by rw [h1]; omega
  rw [hmin, Arr.mk.injEq]
  refine ⟨rfl, ?_⟩
  apply List.ext_getElem?
  intro i
  rw [List.getElem?_take]
  by_cases hi : i < bits.length
  · rw [if_pos hi]
    have hi8 : i = 8 * (i / 8) + i % 8 := by omega
    have hk : i / 8 < (bits.length + 7) / 8 := by omega
    have hj : i % 8 < 8 := by omega
    rw [hi8, flatMap8_getElem? (unpackBit big) _ _ _ hj, List.getElem?_eq_getElem (by rw [h1]; exact hk)]
    have h3 := h2 _ hk _ hj
    rw [List.getD_eq_getElem _ _ (by rw [h1]; exact hk), ← hi8] at h3
    simp only [Option.map_some, unpackBit_eq, h3]
    rw [← hi8, List.getElem?_map, List.getElem?_eq_getElem hi, List.getD_eq_getElem _ _ hi]
    simp [bitByte]
  · rw [if_neg hi, List.getElem?_eq_none (by simp; omega)]

/-- C27: `packbits(unpackbits(x)) = x` for every byte array. -/
theorem C27_pack_unpack (big : Bool) (bytes : List (BitVec 8)) :
    packbitsFlat big ((unpackbitsFlat big bytes none).data.map fun v => v != 0#8) = ⟨[bytes.length], bytes⟩ := by
  rw [unpackbitsFlat_eq]
  dsimp only [Option.getD_none]
  rw [Nat.min_self, List.take_of_length_le (by rw [flatMap8_length])]
  set bits := (bytes.flatMap fun b => (List.range 8).map (unpackBit big b)).map fun v => v != 0#8 with hb
  have hbl : bits.length = bytes.length * 8 := by rw [hb, List.length_map, flatMap8_length]
  obtain ⟨h1, h2⟩ := packLoop8_props big bits
  have h1' : (packLoop8 big bits 0#8 0).length = bytes.length := by rw [h1, hbl]; omega
  rw [packbitsFlat_eq, ← h1, h1', Arr.mk.injEq]
  refine ⟨rfl, ?_⟩
  apply List.ext_getElem h1'
  intro k hk1 hk2
  apply BitVec.eq_of_getLsbD_eq
  intro i hi
  obtain ⟨j, hj, rfl⟩ := bitSlot_surj big hi
  have h3 := h2 k (by rw [← h1]; exact hk1) j hj
  rw [List.getD_eq_getElem _ _ hk1] at h3
  rw [h3, hb]
  simp only [List.getD, List.getElem?_map]
  rw [flatMap8_getElem? (unpackBit big) _ _ _ hj, List.getElem?_eq_getElem hk2]
  simp only [Option.map_some, Option.getD_some, unpackBit_eq]
  cases bytes[k].getLsbD (bitSlot big j) <;> decide

example : packbitsFlat true [true, false, true, true, false, false, false, false, true] = ⟨[2], [0xB0#8, 0x80#8]⟩ := by decide
example : unpackbitsFlat false [0x0D#8] (some 4) = ⟨[4], [1, 0, 1, 1]⟩ := by decide

/-- C27 along an axis: `unpackbits(packbits(a, axis), axis, count=len) = a`. -/
theorem C27_unpack_pack_axis (big : Bool) (a : Nd Bool) (axis : Nat) (hax : axis < a.shape.length)
    (P : Nd (BitVec 8)) (hP : (packbitsAxis big a axis).Is P) :
    (unpackbitsAxis big P axis (some (a.shape.getD axis 0))).Is ⟨a.shape, fun i => bitByte (a.get i)⟩ := by
  -- the packed array
  have hpack : (packbitsAxis big a axis).Is
      ⟨a.shape.set axis ((a.shape.getD axis 0 + 7) / 8), packByteAt big axis (a.shape.getD axis 0) a.get⟩ := by
    unfold packbitsAxis
    rw [if_neg (by omega)]
    dsimp only
    split
    · rename_i h0
      refine ⟨rfl, ?_⟩
      rw [sizeOf_eq] at h0
      have he : indices (a.shape.set axis ((a.shape.getD axis 0 + 7) / 8)) = [] :=
        List.length_eq_zero_iff.1 (by rw [length_indices, h0])
      simp only [Nd.toList, he, sizeOf_eq, h0]; rfl
    · refine ⟨rfl, ?_⟩
      show writes _ _ = _
      rw [writes_odometer _ (packByteAt big axis (a.shape.getD axis 0) a.get) _ (by simp [sizeOf_eq])]
      rfl
  have hshape : P.shape = a.shape.set axis ((a.shape.getD axis 0 + 7) / 8) := by
    rw [← hP.1, hpack.1]
  have hget : ∀ o, InShape P.shape o → P.get o = packByteAt big axis (a.shape.getD axis 0) a.get o := by
    intro o ho
    have h1 := hP.at? ho
    rw [hpack.at? (by rw [hshape] at ho; exact ho)] at h1
    exact (Option.some.inj h1).symm
  have hset : P.shape.getD axis 0 = (a.shape.getD axis 0 + 7) / 8 := by
    rw [hshape, List.getD, List.getElem?_set_self hax]; rfl
  have hmin : min (a.shape.getD axis 0) (P.shape.getD axis 0 * 8) = a.shape.getD axis 0 := by rw [hset]; omega
  have hout : P.shape.set axis (a.shape.getD axis 0) = a.shape := by
    rw [hshape, List.set_set]
    rw [List.getD_eq_getElem _ _ hax, List.set_getElem_self]
  unfold unpackbitsAxis
  rw [if_neg (by rw [hshape]; simp; omega)]
  dsimp only [Option.getD_some]
  rw [hmin, hout]
  -- the bit read at an index
  have hbit : ∀ i, InShape a.shape i →
      unpackBit big (P.get (i.set axis (i.getD axis 0 / 8))) (i.getD axis 0 % 8) = bitByte (a.get i) := by
    intro i hi
    have hil := hi.length_eq
    have hlt : i.getD axis 0 < a.shape.getD axis 0 := (inShape_iff_getD.1 hi).2 axis hax
    have hin : InShape P.shape (i.set axis (i.getD axis 0 / 8)) := by
      rw [hshape, inShape_set hax]
      rw [inShape_iff_getD] at hi
      refine ⟨by simp [hil], ?_, fun d hd hne => ?_⟩
      · rw [List.getD, List.getElem?_set_self (by omega)]; simp only [Option.getD_some]; omega
      · have := hi.2 d hd
        simpa [List.getD, List.getElem?_set_ne (Ne.symm hne)] using this
    rw [hget _ hin, unpackBit_eq]
    have hgd : (i.set axis (i.getD axis 0 / 8)).getD axis 0 = i.getD axis 0 / 8 := by
      rw [List.getD, List.getElem?_set_self (by omega)]; rfl
    unfold packByteAt
    rw [hgd]
    dsimp only
    have hj : i.getD axis 0 % 8 < 8 := Nat.mod_lt _ (by omega)
    have henc := packFold_spec big (i.getD axis 0 / 8 * 8)
      (fun bit => a.get ((i.set axis (i.getD axis 0 / 8)).set axis bit))
      (min (i.getD axis 0 / 8 * 8 + 8) (a.shape.getD axis 0) - i.getD axis 0 / 8 * 8) (by omega)
    rw [henc _ hj]
    have hlen : i.getD axis 0 % 8 < min (i.getD axis 0 / 8 * 8 + 8) (a.shape.getD axis 0) - i.getD axis 0 / 8 * 8 := by omega
    rw [List.getD, List.getElem?_map, List.getElem?_range' hlen]
    simp only [Option.map_some, Option.getD_some, Nat.one_mul, List.set_set]
    have he : i.getD axis 0 / 8 * 8 + i.getD axis 0 % 8 = i.getD axis 0 := by omega
    rw [he]
    have hse : i.set axis (i.getD axis 0) = i := by
      rw [List.getD_eq_getElem _ _ (by omega), List.set_getElem_self]
    rw [hse]
    rfl
  split
  · rename_i h0
    refine ⟨rfl, ?_⟩
    rw [sizeOf_eq] at h0
    have he : indices a.shape = [] := List.length_eq_zero_iff.1 (by rw [length_indices, h0])
    simp only [Nd.toList, he, sizeOf_eq, h0]; rfl
  · refine ⟨rfl, ?_⟩
    show writes _ _ = _
    rw [writes_odometer _ (fun i => unpackBit big (P.get (i.set axis (i.getD axis 0 / 8))) (i.getD axis 0 % 8)) _
      (by simp [sizeOf_eq])]
    unfold Nd.toList
    apply List.map_congr_left
    intro i hi
    exact hbit i (mem_indices.1 hi)

example : packbitsAxis true ⟨[2, 3], fun i => i.getD 0 0 == i.getD 1 0⟩ 1 = ⟨[2, 1], [0x80#8, 0x40#8]⟩ := by decide
example : packbitsAxis false ⟨[2, 3], fun i => i.getD 0 0 == i.getD 1 0⟩ 0 = ⟨[1, 3], [1#8, 2#8, 0#8]⟩ := by decide

end Props
