import Verif.Props.Histogram
/-!
# Property C48 (percentile, quantile, median and their NaN-skipping versions)
-/

namespace Props
open Spec Rumpy

/-! ### The specification -/

theorem sorted_unique {l s s' : List ℚ} (h1 : s.Perm l) (h2 : s.Pairwise (· ≤ ·)) (h1' : s'.Perm l)
    (h2' : s'.Pairwise (· ≤ ·)) : s = s' :=
  List.Perm.eq_of_pairwise (le := (· ≤ ·)) (fun _ _ _ _ h h' => le_antisymm h h') h2 h2' (h1.trans h1'.symm)

theorem split_unique {k k' : Nat} {t t' : ℚ} (h0 : 0 ≤ t) (h1 : t < 1) (h0' : 0 ≤ t') (h1' : t' < 1)
    (h : (k : ℚ) + t = k' + t') : k = k' ∧ t = t' := by
  have e : k = k' := by
    have a : k < k' + 1 := by exact_mod_cast (by push_cast; linarith : (k : ℚ) < ((k' + 1 : Nat) : ℚ))
    have b : k' < k + 1 := by exact_mod_cast (by push_cast; linarith : (k' : ℚ) < ((k + 1 : Nat) : ℚ))
    omega
  subst e
  exact ⟨rfl, by linarith⟩

/-- The percentile of a list is a well-defined number. -/
theorem C48_percentile_unique {l : List ℚ} {p y y' : ℚ} (h : IsPercentile l p y) (h' : IsPercentile l p y') : y = y' := by
  obtain ⟨s, hp, hs, k, t, t0, t1, e, x, z, hx, hz, rfl⟩ := h
  obtain ⟨s', hp', hs', k', t', t0', t1', e', x', z', hx', hz', rfl⟩ := h'
  obtain rfl := sorted_unique hp hs hp' hs'
  obtain ⟨rfl, rfl⟩ := split_unique t0 t1 t0' t1' (e.trans e'.symm)
  obtain rfl := Option.some.inj (hx.symm.trans hx')
  by_cases ht : t = 0
  · subst ht; ring
  · obtain rfl := Option.some.inj ((hz ht).symm.trans (hz' ht))
    rfl

theorem pairwise_get {s : List ℚ} (hs : s.Pairwise (· ≤ ·)) {i j : Nat} (h : i ≤ j) {x y : ℚ} (hx : s[i]? = some x)
    (hy : s[j]? = some y) : x ≤ y := by
  obtain ⟨hi, rfl⟩ := List.getElem?_eq_some_iff.1 hx
  obtain ⟨hj, rfl⟩ := List.getElem?_eq_some_iff.1 hy
  rcases Nat.lt_or_eq_of_le h with h | rfl
  · exact List.pairwise_iff_getElem.1 hs i j hi hj h
  · exact le_refl _

/-- C48: percentiles grow with the percentage. -/
theorem C48_percentile_mono {l : List ℚ} {p p' y y' : ℚ} (hpp : p ≤ p') (h : IsPercentile l p y)
    (h' : IsPercentile l p' y') : y ≤ y' := by
  obtain ⟨s, hp, hs, k, t, t0, t1, e, x, z, hx, hz, rfl⟩ := h
  obtain ⟨s', hp', hs', k', t', t0', t1', e', x', z', hx', hz', rfl⟩ := h'
  obtain rfl := sorted_unique hp hs hp' hs'
  have hk0 : k < l.length := by
    rw [← hp.length_eq]; exact (List.getElem?_eq_some_iff.1 hx).1
  have hn : (0 : ℚ) ≤ (l.length : ℚ) - 1 := by
    have : (1 : ℚ) ≤ l.length := by exact_mod_cast (by omega : 1 ≤ l.length)
    linarith
  have hle : (k : ℚ) + t ≤ k' + t' := by rw [e, e']; nlinarith
  have hlow : ∀ {t z x : ℚ} {k : Nat}, 0 ≤ t → s[k]? = some x → (t ≠ 0 → s[k + 1]? = some z) → x ≤ x + t * (z - x) := by
    intro t z x k t0 hx hz
    by_cases ht : t = 0
    · subst ht; linarith
    · have := pairwise_get hs (Nat.le_succ k) hx (hz ht)
      nlinarith
  have hkk : k ≤ k' := by
    have : k < k' + 1 := by exact_mod_cast (by push_cast; linarith : (k : ℚ) < ((k' + 1 : Nat) : ℚ))
    omega
  rcases Nat.lt_or_eq_of_le hkk with hlt | rfl
  · have hk' : k' < s.length := (List.getElem?_eq_some_iff.1 hx').1
    have hm : s[k + 1]? = some s[k + 1] := List.getElem?_eq_getElem (by omega)
    have h1 : x + t * (z - x) ≤ s[k + 1] := by
      by_cases ht : t = 0
      · subst ht
        have := pairwise_get hs (Nat.le_succ k) hx hm
        linarith
      · have hz := hz ht
        rw [hm] at hz
        have := pairwise_get hs (Nat.le_succ k) hx hm
        have e := Option.some.inj hz
        nlinarith
    have h2 := pairwise_get hs hlt hm hx'
    have h3 := hlow t0' hx' hz'
    linarith
  · obtain rfl := Option.some.inj (hx.symm.trans hx')
    have htt : t ≤ t' := by linarith
    by_cases ht' : t' = 0
    · have : t = 0 := by linarith
      subst this; subst ht'; linarith
    · by_cases ht : t = 0
      · subst ht
        have := hlow t0' hx' hz'
        linarith
      · obtain rfl := Option.some.inj ((hz ht).symm.trans (hz' ht'))
        have := pairwise_get hs (Nat.le_succ k) hx (hz ht)
        nlinarith

/-- C48: the percentile lies between the smallest and the largest value; it is the smallest for 0 and the largest
for 100. -/
theorem C48_percentile_bounds {l : List ℚ} {p y : ℚ} (h : IsPercentile l p y) :
    (∃ a ∈ l, ∃ b ∈ l, a ≤ y ∧ y ≤ b) ∧ (p = 0 → y ∈ l ∧ ∀ x ∈ l, y ≤ x) ∧ (p = 100 → y ∈ l ∧ ∀ x ∈ l, x ≤ y) := by
  obtain ⟨s, hp, hs, k, t, t0, t1, e, x, z, hx, hz, rfl⟩ := h
  have mem : ∀ {i : Nat} {x : ℚ}, s[i]? = some x → x ∈ l := fun h => hp.mem_iff.1 (List.mem_of_getElem? h)
  have hk : k < s.length := (List.getElem?_eq_some_iff.1 hx).1
  have hn : 1 ≤ l.length := by rw [← hp.length_eq]; omega
  refine ⟨?_, ?_, ?_⟩
  · by_cases ht : t = 0
    · subst ht
      exact ⟨x, mem hx, x, mem hx, by linarith, by linarith⟩
    · have := pairwise_get hs (Nat.le_succ k) hx (hz ht)
      exact ⟨x, mem hx, z, mem (hz ht), by nlinarith, by nlinarith⟩
  · rintro rfl
    have h0 : (k : ℚ) + t = ((0 : Nat) : ℚ) + 0 := by rw [e]; simp
    obtain ⟨rfl, rfl⟩ := split_unique t0 t1 (le_refl _) (by norm_num) h0
    rw [show x + 0 * (z - x) = x by ring]
    refine ⟨mem hx, fun w hw => ?_⟩
    obtain ⟨i, hi⟩ := List.mem_iff_getElem?.1 (hp.mem_iff.2 hw)
    exact pairwise_get hs (Nat.zero_le i) hx hi
  · rintro rfl
    have h0 : (k : ℚ) + t = ((l.length - 1 : Nat) : ℚ) + 0 := by rw [e, Nat.cast_sub hn]; push_cast; ring
    obtain ⟨rfl, rfl⟩ := split_unique t0 t1 (le_refl _) (by norm_num) h0
    rw [show x + 0 * (z - x) = x by ring]
    refine ⟨mem hx, fun w hw => ?_⟩
    obtain ⟨i, hi⟩ := List.mem_iff_getElem?.1 (hp.mem_iff.2 hw)
    have : i < s.length := (List.getElem?_eq_some_iff.1 hi).1
    exact pairwise_get hs (by have := hp.length_eq; omega) hi hx

/-- The median is the 50th percentile. -/
theorem C48_median_is_percentile {l : List ℚ} {y : ℚ} (h : IsMedian l y) : IsPercentile l 50 y := by
  obtain ⟨s, hp, hs, ⟨m, hl, hm⟩ | ⟨m, x, z, hl, hx, hz, rfl⟩⟩ := h
  · exact ⟨s, hp, hs, m, 0, le_refl _, by norm_num, by rw [hl]; push_cast; ring, y, 0, hm, by simp, by ring⟩
  · exact ⟨s, hp, hs, m, 1 / 2, by norm_num, by norm_num, by rw [hl]; push_cast; ring, x, z, hx, fun _ => hz, by ring⟩

/-! ### percentiles -/

theorem ratToUsize_int (i : Int) : ratToUsize (i : ℚ) = i.toNat := by unfold ratToUsize; simp

theorem interpolate_spec {l s : List ℚ} (hp : s.Perm l) (hs : s.Pairwise (· ≤ ·)) (hne : l ≠ []) {p : ℚ} (h0 : 0 ≤ p)
    (h1 : p ≤ 100) : ∃ y, interpolate s p = some y ∧ IsPercentile l p y := by
  have hlen := hp.length_eq
  have hn : s.length ≠ 0 := by rw [hlen]; exact fun h => hne (List.length_eq_zero_iff.1 h)
  unfold interpolate
  dsimp only
  rw [if_neg hn]
  by_cases h1' : s.length = 1
  · rw [if_pos h1']
    obtain ⟨x, rfl⟩ := List.length_eq_one_iff.1 h1'
    refine ⟨x, rfl, [x], hp, hs, 0, 0, le_refl _, by norm_num, ?_, x, 0, rfl, by simp, by ring⟩
    rw [← hlen]; simp
  · rw [if_neg h1']
    have hq : ((s.length - 1 : Nat) : ℚ) = (l.length : ℚ) - 1 := by
      rw [hlen, Nat.cast_sub (by omega)]; simp
    have hq1 : (0 : ℚ) ≤ ((s.length - 1 : Nat) : ℚ) := by positivity
    generalize hidx : p / 100 * ((s.length - 1 : Nat) : ℚ) = idx
    have i0 : 0 ≤ idx := by rw [← hidx]; positivity
    have i1 : idx ≤ ((s.length - 1 : Nat) : ℚ) := by rw [← hidx]; nlinarith
    rw [ratToUsize_int, ratToUsize_int]
    obtain ⟨k, hk⟩ := Int.eq_ofNat_of_zero_le (Int.floor_nonneg.2 i0)
    have hk1 : (k : ℚ) ≤ idx := by have := Int.floor_le idx; rw [hk] at this; exact_mod_cast this
    have hk2 : idx < k + 1 := by have := Int.lt_floor_add_one idx; rw [hk] at this; exact_mod_cast this
    have hc1 : ⌈idx⌉ ≤ ((s.length - 1 : Nat) : Int) := Int.ceil_le.2 (by exact_mod_cast i1)
    have hc0 : (k : Int) ≤ ⌈idx⌉ := by rw [← hk]; exact Int.floor_le_ceil idx
    rw [hk]
    simp only [Int.toNat_natCast]
    have hc2 : ⌈idx⌉ ≤ k + 1 := Int.ceil_le.2 (by push_cast; exact hk2.le)
    have hks : k < s.length := by omega
    have hx : s[k]? = some s[k] := List.getElem?_eq_getElem hks
    by_cases hb : k = ⌈idx⌉.toNat ∨ ⌈idx⌉.toNat ≥ s.length
    · rw [if_pos hb]
      have hb' : k = ⌈idx⌉.toNat := by
        rcases hb with hb | hb
        · exact hb
        · omega
      have he : idx = k := by
        have := Int.le_ceil idx
        have h' : ⌈idx⌉ = (k : Int) := by omega
        rw [h'] at this
        exact le_antisymm (by exact_mod_cast this) hk1
      rw [Nat.min_eq_left (by omega), hx]
      exact ⟨_, rfl, s, hp, hs, k, 0, le_refl _, by norm_num, by rw [← hq, hidx, he]; ring, s[k], 0, hx, by simp, by ring⟩
    · rw [if_neg hb]
      push Not at hb
      have hc : ⌈idx⌉.toNat = k + 1 := by omega
      have hz : s[k + 1]? = some s[k + 1] := List.getElem?_eq_getElem (by omega)
      refine ⟨_, rfl, s, hp, hs, k, idx - k, by linarith, by linarith, by rw [← hq, hidx]; ring, s[k], s[k + 1], hx,
        fun _ => hz, ?_⟩
      rw [hc, List.getD_eq_getElem _ _ hks, List.getD_eq_getElem _ _ (by omega : k + 1 < s.length)]
      ring

theorem sortVals_perm (l : List ℚ) : (sortVals l).Perm l := List.perm_insertionSort _ _
theorem sortVals_sorted (l : List ℚ) : (sortVals l).Pairwise (· ≤ ·) := List.pairwise_insertionSort _ _

theorem inRange_of {q : List ℚ} (hq : ∀ p ∈ q, 0 ≤ p ∧ p ≤ 100) : (q.any fun p => decide (p < 0) || decide (p > 100)) = false := by
  rw [List.any_eq_false]
  intro p hp
  have := hq p hp
  simp [this.1, this.2]

/-- C48 (partial): for a non-empty array of any layout and percentages from 0 to 100, entry `i` of `percentile` is the
percentile `q[i]` of all elements.  (Missing: the empty array, see the counterexample.) -/
theorem C48_percentile_flat_partial {v : View} (hw : v.WF) (mem : Int → ℚ) (hne : size v.shape ≠ 0) {q : List ℚ}
    (hq : ∀ p ∈ q, 0 ≤ p ∧ p ≤ 100) :
    ∃ r, percentile mem v q none = some r ∧ r.shape = [q.length] ∧ r.data.length = q.length ∧
      ∀ (i : Nat) (p : ℚ), q[i]? = some p → ∃ y, r.data[i]? = some (some y) ∧ IsPercentile (v.denote mem).toList p y := by
  unfold percentile percentileFlat
  rw [inRange_of hq, sizeOf_eq, if_neg hne, addrs_map hw, writes_zipIdx _ _ _ (by simp)]
  refine ⟨_, rfl, rfl, by simp, fun i p hi => ?_⟩
  have hne' : (v.denote mem).toList ≠ [] := by
    intro h
    apply hne
    have := congrArg List.length h
    rw [Nd.length_toList] at this
    exact this
  have hp := hq p (List.mem_of_getElem? hi)
  obtain ⟨y, hy, hy'⟩ := interpolate_spec (sortVals_perm _) (sortVals_sorted _) hne' hp.1 hp.2
  exact ⟨y, by simp [hi, hy], hy'⟩

/-- Stores of one value per percentage and lane. -/
theorem percentileAxisWith_spec {α : Type} (f : List α → ℚ → Option ℚ) (mem : Int → α) {v : View} (hw : v.WF) (q : List ℚ) {axis : Nat}
    (hax : axis < v.shape.length) (hne : v.shape.getD axis 0 ≠ 0) :
    ∃ r, percentileAxisWith f mem v q axis = some r ∧
      r.shape = (if q.length = 1 then [] else [q.length]) ++
        (if (v.shape.eraseIdx axis).isEmpty then [1] else v.shape.eraseIdx axis) ∧
      r.data.length = q.length * size (v.shape.eraseIdx axis) ∧
      ∀ (i : Nat) (p : ℚ), q[i]? = some p → ∀ idx, InShape (v.shape.eraseIdx axis) idx →
        r.data[i * size (v.shape.eraseIdx axis) + rank (v.shape.eraseIdx axis) idx]? =
          some (f ((v.denote mem).lane axis idx) p) := by
  unfold percentileAxisWith
  rw [if_neg (by omega)]
  dsimp only
  generalize hos : v.shape.eraseIdx axis = os
  have hsz : Rumpy.sizeOf (if os.isEmpty then [1] else os) = size os := by rw [sizeOf_eq, outShape_size]
  have hout : Rumpy.sizeOf (if q.length = 1 then (if os.isEmpty then [1] else os) else
      q.length :: (if os.isEmpty then [1] else os)) = q.length * size os := by
    rw [sizeOf_eq]
    split
    · next h => rw [outShape_size, h, Nat.one_mul]
    · rw [size, outShape_size]
  rw [hsz, hout]
  have hshape : (if q.length = 1 then (if os.isEmpty then [1] else os) else q.length :: (if os.isEmpty then [1] else os)) =
      (if q.length = 1 then [] else [q.length]) ++ (if os.isEmpty then [1] else os) := by
    split <;> rfl
  rw [hshape]
  by_cases h0 : size os = 0
  · rw [if_pos (Or.inr h0)]
    refine ⟨_, rfl, rfl, by simp, fun i p _ idx hi => ?_⟩
    have := rank_lt hi
    omega
  · rw [if_neg (by simp [h0, hne]; exact hne)]
    refine ⟨_, rfl, rfl, by simp, fun i p hi idx hidx => ?_⟩
    have hiq : i < q.length := (List.getElem?_eq_some_iff.1 hi).1
    have hrk := rank_lt hidx
    have hbound : i * size os + rank os idx < q.length * size os := by
      calc i * size os + rank os idx < i * size os + size os := by omega
        _ = (i + 1) * size os := by ring
        _ ≤ q.length * size os := Nat.mul_le_mul_right _ hiq
    rw [C01_axis_iter_row_major _ _ _ _ hw.len, hos, List.zipIdx_map, indices_zipIdx, List.map_map]
    have hlane : ∀ idx, InShape os idx → ((List.range (v.shape.getD axis 0)).map fun j : Nat =>
        mem (v.offset + (0 + byteOffset idx (v.strides.eraseIdx axis)) + v.strides.getD axis 0 * j)) =
        (v.denote mem).lane axis idx := by
      intro idx hi
      unfold Nd.lane
      apply List.map_congr_left
      intro j _
      rw [zero_add, ← lane_addr hw hax (by rw [hos]; exact hi)]
      rfl
    rw [List.flatMap_map, show ((indices os).flatMap fun idx => _) = (indices os).flatMap fun idx =>
        if q.length = 1 then [(rank os idx, f ((v.denote mem).lane axis idx) (q.getD 0 0))]
        else q.zipIdx.map fun pq => (pq.2 * size os + rank os idx, f ((v.denote mem).lane axis idx) pq.1) from
      List.flatMap_congr fun idx hidx => by
        simp only [Function.comp, Prod.map, id]
        rw [hlane idx (mem_indices.1 hidx)]]
    apply writes_get_of_agree
    · rw [List.mem_map]
      by_cases h1 : q.length = 1
      · have : i = 0 := by omega
        subst this
        refine ⟨(rank os idx, f ((v.denote mem).lane axis idx) (q.getD 0 0)), List.mem_flatMap.2 ⟨idx, mem_indices.2 hidx, ?_⟩,
          by simp⟩
        rw [if_pos h1]
        exact List.mem_singleton.2 rfl
      · refine ⟨(i * size os + rank os idx, f ((v.denote mem).lane axis idx) p), List.mem_flatMap.2 ⟨idx, mem_indices.2 hidx, ?_⟩, rfl⟩
        rw [if_neg h1]
        exact List.mem_map.2 ⟨(p, i), by simpa [List.mk_mem_zipIdx_iff_getElem?] using hi, rfl⟩
    · intro y hy
      obtain ⟨idx', hidx', hy⟩ := List.mem_flatMap.1 hy
      rw [mem_indices] at hidx'
      by_cases h1 : q.length = 1
      · rw [if_pos h1, List.mem_singleton, Prod.mk.injEq] at hy
        have : i = 0 := by omega
        subst this
        obtain ⟨e1, rfl⟩ := hy
        have := rank_inj hidx hidx' (by omega)
        subst this
        congr 1
        rw [List.getD_eq_getElem?_getD, hi]; rfl
      · rw [if_neg h1] at hy
        obtain ⟨⟨p', i'⟩, hm, he⟩ := List.mem_map.1 hy
        rw [List.mk_mem_zipIdx_iff_getElem?] at hm
        rw [Prod.mk.injEq] at he
        obtain ⟨e1, rfl⟩ := he
        obtain ⟨rfl, e2⟩ := two_inj (rank_lt hidx') hrk e1
        have := rank_inj hidx' hidx e2
        subst this
        rw [hi] at hm
        cases hm
        rfl
    · simpa using hbound

/-- C48 (partial): along an axis that is not empty, `percentile` holds for every percentage and every position of the
remaining axes the percentile of that lane; percentages come first in the result and are left out when there is only
one. -/
theorem C48_percentile_axis_partial {v : View} (hw : v.WF) (mem : Int → ℚ) {q : List ℚ} {axis : Nat}
    (hax : axis < v.shape.length) (hne : v.shape.getD axis 0 ≠ 0) (hq : ∀ p ∈ q, 0 ≤ p ∧ p ≤ 100) :
    ∃ r, percentile mem v q (some axis) = some r ∧
      r.shape = (if q.length = 1 then [] else [q.length]) ++
        (if (v.shape.eraseIdx axis).isEmpty then [1] else v.shape.eraseIdx axis) ∧
      r.data.length = q.length * size (v.shape.eraseIdx axis) ∧
      ∀ (i : Nat) (p : ℚ), q[i]? = some p → ∀ idx, InShape (v.shape.eraseIdx axis) idx →
        ∃ y, r.data[i * size (v.shape.eraseIdx axis) + rank (v.shape.eraseIdx axis) idx]? = some (some y) ∧
          IsPercentile ((v.denote mem).lane axis idx) p y := by
  unfold percentile
  rw [inRange_of hq]
  obtain ⟨r, h1, h2, h3, h4⟩ := percentileAxisWith_spec (fun vals p => interpolate (sortVals vals) p) mem hw q hax hne
  refine ⟨r, h1, h2, h3, fun i p hi idx hidx => ?_⟩
  have hp := hq p (List.mem_of_getElem? hi)
  have hl : (v.denote mem).lane axis idx ≠ [] := by
    intro h
    have := congrArg List.length h
    simp only [Nd.lane, List.length_map, List.length_range, List.length_nil] at this
    exact hne this
  obtain ⟨y, hy, hy'⟩ := interpolate_spec (sortVals_perm _) (sortVals_sorted _) hl hp.1 hp.2
  exact ⟨y, by rw [h4 i p hi idx hidx, hy], hy'⟩

example : percentile (fun a => [(1 : ℚ), 5, 2, 4, 8, 0].getD (a / 8).toNat 0) (View.fresh [2, 3] 8) [50, 100] (some 1) =
    some ⟨[2, 2], [some 2, some 4, some 5, some 8]⟩ := by decide +kernel

/-- C48: `percentile` is refused exactly for percentages outside 0 to 100 and for an axis that does not exist. -/
theorem C48_percentile_refused_iff (mem : Int → ℚ) (v : View) (q : List ℚ) (axis : Option Nat) :
    percentile mem v q axis = none ↔ (∃ p ∈ q, p < 0 ∨ 100 < p) ∨ ∃ ax, axis = some ax ∧ v.shape.length ≤ ax := by
  unfold percentile
  by_cases h : (q.any fun p => decide (p < 0) || decide (p > 100)) = true
  · rw [if_pos h]
    rw [List.any_eq_true] at h
    obtain ⟨p, hp, h⟩ := h
    simp only [Bool.or_eq_true, decide_eq_true_eq] at h
    exact iff_of_true rfl (Or.inl ⟨p, hp, h⟩)
  · rw [if_neg h]
    have h' : ¬ ∃ p ∈ q, p < 0 ∨ 100 < p := by
      rintro ⟨p, hp, hh⟩
      exact h (List.any_eq_true.2 ⟨p, hp, by simpa using hh⟩)
    simp only [h', false_or]
    cases axis with
    | none => simp
    | some ax =>
      simp only [Option.some.injEq, exists_eq_left']
      unfold percentileAxisWith
      by_cases ha : ax ≥ v.shape.length
      · simp [ha]
      · rw [if_neg ha]
        simp only [ge_iff_le] at ha
        simp only [ha, iff_false]
        intro h
        by_cases hc : v.shape.getD ax 0 = 0 ∨
            Rumpy.sizeOf (if (v.shape.eraseIdx ax).isEmpty then [1] else v.shape.eraseIdx ax) = 0
        · rw [if_pos hc] at h; cases h
        · rw [if_neg hc] at h; cases h

/-- C48: `quantile(q)` is `percentile(100 q)`. -/
theorem C48_quantile (mem : Int → ℚ) (v : View) (q : List ℚ) (axis : Option Nat) :
    quantile mem v q axis = percentile mem v (q.map (100 * ·)) axis := by
  unfold quantile percentile
  have e : (fun x : ℚ => x * 100) = fun x => 100 * x := by funext x; ring
  rw [List.any_map, e]
  have : ((fun p : ℚ => decide (p < 0) || decide (p > 100)) ∘ fun x : ℚ => 100 * x) =
      fun p : ℚ => decide (p < 0) || decide (p > 1) := by
    funext p
    simp only [Function.comp]
    congr 1
    · exact decide_eq_decide.2 ⟨fun h => by linarith, fun h => by linarith⟩
    · exact decide_eq_decide.2 ⟨fun h => by linarith, fun h => by linarith⟩
  rw [this]

/-- C48 fails for an empty array and an empty axis: the percentile is 0, not NaN. -/
theorem C48_percentile_counterexample :
    percentile (fun _ => (7 : ℚ)) (View.fresh [0] 8) [50] none = some ⟨[1], [some 0]⟩ ∧
    percentile (fun _ => (7 : ℚ)) (View.fresh [2, 0] 8) [50] (some 1) = some ⟨[2], [some 0, some 0]⟩ := by decide +kernel

/-- What a NaN-skipping statistic of a lane must be: NaN if only NaN is left, else the statistic of the other values. -/
def SkipNaN (P : List ℚ → ℚ → Prop) (l : List (Option ℚ)) (y : Option ℚ) : Prop :=
  if l.filterMap id = [] then y = none else ∃ z, y = some z ∧ P (l.filterMap id) z

/-- C48: `nanpercentile` over all elements skips NaN, and gives NaN when nothing else is left. -/
theorem C48_nanpercentile_flat {v : View} (hw : v.WF) (mem : Int → Option ℚ) {q : List ℚ} (hq : ∀ p ∈ q, 0 ≤ p ∧ p ≤ 100) :
    ∃ r, nanpercentile mem v q none = some r ∧ r.shape = [q.length] ∧ r.data.length = q.length ∧
      ∀ (i : Nat) (p : ℚ), q[i]? = some p → ∃ y, r.data[i]? = some y ∧ SkipNaN (fun l => IsPercentile l p) (v.denote mem).toList y := by
  unfold nanpercentile nanpercentileFlat
  have hs : (if q.length = 1 then [1] else [q.length]) = [q.length] := by split <;> simp_all
  have hz : Rumpy.sizeOf [q.length] = q.length := by rw [sizeOf_eq]; simp [size]
  rw [inRange_of hq, addrs_map hw]
  dsimp only
  rw [hs, hz, writes_zipIdx _ _ _ (by simp)]
  simp only [Bool.false_eq_true, if_false]
  by_cases he : (v.denote mem).toList.filterMap id = []
  · have hem : ((v.denote mem).toList.filterMap id).isEmpty = true := by rw [he]; rfl
    rw [if_pos hem]
    refine ⟨_, rfl, rfl, by simp, fun i p hi => ⟨none, ?_, ?_⟩⟩
    · have := (List.getElem?_eq_some_iff.1 hi).1
      simp [this]
    · unfold SkipNaN; rw [if_pos he]
  · have hem : ¬ ((v.denote mem).toList.filterMap id).isEmpty = true := fun h => he (List.isEmpty_iff.1 h)
    rw [if_neg hem]
    refine ⟨_, rfl, rfl, by simp, fun i p hi => ?_⟩
    have hp := hq p (List.mem_of_getElem? hi)
    obtain ⟨y, hy, hy'⟩ := interpolate_spec (sortVals_perm _) (sortVals_sorted _) he hp.1 hp.2
    refine ⟨some y, by rw [List.getElem?_map, hi, Option.map_some, hy], ?_⟩
    unfold SkipNaN
    rw [if_neg he]
    exact ⟨y, rfl, hy'⟩

/-- C48 (partial): `nanpercentile` along a non-empty axis does the same for every lane. -/
theorem C48_nanpercentile_axis_partial {v : View} (hw : v.WF) (mem : Int → Option ℚ) {q : List ℚ} {axis : Nat}
    (hax : axis < v.shape.length) (hne : v.shape.getD axis 0 ≠ 0) (hq : ∀ p ∈ q, 0 ≤ p ∧ p ≤ 100) :
    ∃ r, nanpercentile mem v q (some axis) = some r ∧
      r.shape = (if q.length = 1 then [] else [q.length]) ++
        (if (v.shape.eraseIdx axis).isEmpty then [1] else v.shape.eraseIdx axis) ∧
      r.data.length = q.length * size (v.shape.eraseIdx axis) ∧
      ∀ (i : Nat) (p : ℚ), q[i]? = some p → ∀ idx, InShape (v.shape.eraseIdx axis) idx →
        ∃ y, r.data[i * size (v.shape.eraseIdx axis) + rank (v.shape.eraseIdx axis) idx]? = some y ∧
          SkipNaN (fun l => IsPercentile l p) ((v.denote mem).lane axis idx) y := by
  unfold nanpercentile
  rw [inRange_of hq]
  obtain ⟨r, h1, h2, h3, h4⟩ := percentileAxisWith_spec (fun vals p => let s := sortVals (vals.filterMap id)
        if s.isEmpty then none else interpolate s p) mem hw q hax hne
  refine ⟨r, h1, h2, h3, fun i p hi idx hidx => ⟨_, h4 i p hi idx hidx, ?_⟩⟩
  have hp := hq p (List.mem_of_getElem? hi)
  dsimp only
  unfold SkipNaN
  by_cases he : ((v.denote mem).lane axis idx).filterMap id = []
  · rw [if_pos he, he]; rfl
  · rw [if_neg he]
    have hs : (sortVals (((v.denote mem).lane axis idx).filterMap id)).isEmpty = false := by
      cases hh : sortVals (((v.denote mem).lane axis idx).filterMap id) with
      | nil =>
        have := (sortVals_perm (((v.denote mem).lane axis idx).filterMap id)).length_eq
        rw [hh] at this
        exact absurd (List.length_eq_zero_iff.1 this.symm) he
      | cons => rfl
    rw [hs]
    obtain ⟨y, hy, hy'⟩ := interpolate_spec (sortVals_perm _) (sortVals_sorted _) he hp.1 hp.2
    exact ⟨y, by simpa using hy, hy'⟩

example : nanpercentile (fun a => [some (1 : ℚ), none, some 2, none].getD (a / 8).toNat none) (View.fresh [2, 2] 8) [50] (some 0) =
    some ⟨[2], [some (3 / 2), none]⟩ := by decide +kernel

/-! ### medians -/

/-- Choosing the middle entry of a partitioned list gives the median. -/
theorem medianOf_spec {select : Nat → List ℚ → List ℚ} (hsel : SelectValues select) {l : List ℚ} (hne : l ≠ []) :
    ∃ y, medianOf select l = some y ∧ IsMedian l y := by
  have hn : l.length ≠ 0 := fun h => hne (List.length_eq_zero_iff.1 h)
  obtain ⟨hp, x, hx, hlo, hhi⟩ := hsel (l.length / 2) l (by omega)
  unfold medianOf
  dsimp only
  rw [if_neg hn]
  generalize select (l.length / 2) l = b at hp hx hlo hhi
  have hbl := hp.length_eq
  generalize hm : l.length / 2 = m at hx hlo hhi
  have hk : m < b.length := by omega
  have hb : b = b.take m ++ x :: b.drop (m + 1) := by
    obtain ⟨hk', hxe⟩ := List.getElem?_eq_some_iff.1 hx
    conv_lhs => rw [← List.take_append_drop m b, List.drop_eq_getElem_cons hk, hxe]
  have htl : (sortVals (b.take m)).length = m := by rw [(sortVals_perm _).length_eq, List.length_take]; omega
  have hsorted : (sortVals (b.take m) ++ x :: sortVals (b.drop (m + 1))).Pairwise (· ≤ ·) := by
    have hlow : ∀ y ∈ sortVals (b.take m), y ≤ x := by
      intro y hy
      obtain ⟨i, hi, rfl⟩ := List.mem_iff_getElem.1 ((sortVals_perm _).mem_iff.1 hy)
      rw [List.length_take] at hi
      apply hlo i _ (by omega)
      rw [List.getElem_take, List.getElem?_eq_getElem]
    have hhigh : ∀ y ∈ sortVals (b.drop (m + 1)), x ≤ y := by
      intro y hy
      obtain ⟨i, hi, rfl⟩ := List.mem_iff_getElem.1 ((sortVals_perm _).mem_iff.1 hy)
      rw [List.length_drop] at hi
      apply hhi (m + 1 + i) _ (by omega)
      rw [List.getElem_drop, List.getElem?_eq_getElem]
    rw [List.pairwise_append, List.pairwise_cons]
    refine ⟨sortVals_sorted _, ⟨hhigh, sortVals_sorted _⟩, ?_⟩
    intro y hy z hz
    rcases List.mem_cons.1 hz with rfl | hz
    · exact hlow y hy
    · exact (hlow y hy).trans (hhigh z hz)
  have hperm : (sortVals (b.take m) ++ x :: sortVals (b.drop (m + 1))).Perm l := by
    refine List.Perm.trans ?_ hp
    conv_rhs => rw [hb]
    exact (sortVals_perm _).append ((sortVals_perm _).cons _)
  have hmid : (sortVals (b.take m) ++ x :: sortVals (b.drop (m + 1)))[m]? = some x := by
    rw [List.getElem?_append_right (by omega), htl]; simp
  by_cases h2 : l.length % 2 = 0
  · rw [if_pos h2]
    have hte : b.take m ≠ [] := by
      intro h
      have := congrArg List.length h
      rw [List.length_take, List.length_nil] at this
      omega
    obtain ⟨M, hM, hMm, hMx⟩ := foldMax_spec hte
    rw [hM, hx]
    refine ⟨_, rfl, _, hperm, hsorted, Or.inr ⟨m - 1, M, x, by omega, ?_, by rw [Nat.sub_add_cancel (by omega)]; exact hmid, rfl⟩⟩
    rw [List.getElem?_append_left (by omega)]
    have hlast : (sortVals (b.take m))[m - 1]? = some (sortVals (b.take m))[m - 1] := List.getElem?_eq_getElem (by omega)
    rw [hlast, Option.some.injEq]
    apply le_antisymm
    · exact hMx _ ((sortVals_perm _).mem_iff.1 (List.getElem_mem _))
    · obtain ⟨i, hi⟩ := List.mem_iff_getElem?.1 ((sortVals_perm (b.take m)).mem_iff.2 hMm)
      have : i < (sortVals (b.take m)).length := (List.getElem?_eq_some_iff.1 hi).1
      exact pairwise_get (sortVals_sorted _) (by omega) hi hlast
  · rw [if_neg h2, hx]
    exact ⟨x, rfl, _, hperm, hsorted, Or.inl ⟨m, by omega, hmid⟩⟩

/-- C48: `median` is the median of all elements, NaN for an empty array, for every memory layout and every way the
selection may order the elements. -/
theorem C48_median {select : Nat → List ℚ → List ℚ} (hsel : SelectValues select) {v : View} (hw : v.WF) (mem : Int → ℚ) :
    if size v.shape = 0 then median select mem v = none
    else ∃ y, median select mem v = some y ∧ IsMedian (v.denote mem).toList y := by
  unfold median
  rw [addrs_map hw]
  split
  · next h =>
    have : (v.denote mem).toList = [] := List.length_eq_zero_iff.1 (by rw [Nd.length_toList]; exact h)
    rw [this]; rfl
  · next h =>
    apply medianOf_spec hsel
    intro h'
    apply h
    have := congrArg List.length h'
    rw [Nd.length_toList] at this
    exact this

/-- C48: `nanmedian` is the median of the elements that are not NaN, and NaN if there are none. -/
theorem C48_nanmedian {select : Nat → List ℚ → List ℚ} (hsel : SelectValues select) {v : View} (hw : v.WF)
    (mem : Int → Option ℚ) : SkipNaN IsMedian (v.denote mem).toList (nanmedian select mem v) := by
  unfold nanmedian SkipNaN
  rw [addrs_map hw]
  split
  · next h => rw [h]; rfl
  · next h => exact medianOf_spec hsel h

/-- Sorting meets the contract of the selection, and a selection that does not sort meets it too. -/
example : SelectValues fun _ l => sortVals l := fun k l hk => by
  refine ⟨sortVals_perm l, (sortVals l)[k]'(by rw [(sortVals_perm l).length_eq]; exact hk), List.getElem?_eq_getElem _, ?_, ?_⟩
  · intro i y hi hy
    exact pairwise_get (sortVals_sorted l) hi.le hy (List.getElem?_eq_getElem _)
  · intro i y hi hy
    exact pairwise_get (sortVals_sorted l) hi.le (List.getElem?_eq_getElem _) hy

theorem medianSorted_spec {l : List ℚ} (hne : l ≠ []) : ∃ y, medianSorted l = some y ∧ IsMedian l y := by
  have hlen := (sortVals_perm l).length_eq
  have hn : (sortVals l).length ≠ 0 := by rw [hlen]; exact fun h => hne (List.length_eq_zero_iff.1 h)
  unfold medianSorted
  dsimp only
  rw [if_neg hn]
  split
  · next h2 =>
    refine ⟨_, rfl, _, sortVals_perm l, sortVals_sorted l,
      Or.inr ⟨(sortVals l).length / 2 - 1, _, _, by omega, List.getElem?_eq_getElem (by omega),
        List.getElem?_eq_getElem (by omega), ?_⟩⟩
    rw [List.getD_eq_getElem _ _ (by omega), List.getD_eq_getElem _ _ (by omega)]
    congr 3
    omega
  · next h2 =>
    refine ⟨(sortVals l)[(sortVals l).length / 2], List.getElem?_eq_getElem (by omega), _, sortVals_perm l, sortVals_sorted l,
      Or.inl ⟨(sortVals l).length / 2, by omega, List.getElem?_eq_getElem (by omega)⟩⟩

theorem insertIdx_take_drop {l : List Nat} {i k : Nat} (h : i ≤ l.length) : l.take i ++ [k] ++ l.drop i = l.insertIdx i k := by
  induction l generalizing i with
  | nil =>
    have : i = 0 := by simpa using h
    subst this; rfl
  | cons a l ih =>
    cases i with
    | zero => rfl
    | succ i =>
      have := ih (i := i) (by simpa using h)
      simp only [List.take_succ_cons, List.drop_succ_cons, List.cons_append, List.insertIdx_succ_cons, this]

/-- C48 (partial): `median` along a non-empty axis holds the median of every lane. -/
theorem C48_median_axis_partial {v : View} (hw : v.WF) (mem : Int → ℚ) {axis : Nat} (hax : axis < v.shape.length)
    (hne : v.shape.getD axis 0 ≠ 0) :
    ∃ r, medianAxis mem v axis = .ok r ∧
      r.shape = (if (v.shape.eraseIdx axis).isEmpty then [1] else v.shape.eraseIdx axis) ∧
      r.data.length = size (v.shape.eraseIdx axis) ∧
      ∀ idx, InShape (v.shape.eraseIdx axis) idx → ∃ y, r.data[rank (v.shape.eraseIdx axis) idx]? = some (some y) ∧
        IsMedian ((v.denote mem).lane axis idx) y := by
  have hmed : ∀ idx, ∃ y, medianSorted ((v.denote mem).lane axis idx) = some y ∧ IsMedian ((v.denote mem).lane axis idx) y := by
    intro idx
    apply medianSorted_spec
    intro h
    have := congrArg List.length h
    simp only [Nd.lane, List.length_map, List.length_range, List.length_nil] at this
    exact hne this
  unfold medianAxis
  rw [if_pos hax]
  dsimp only
  rw [sizeOf_eq, outShape_size]
  by_cases h0 : size (v.shape.eraseIdx axis) = 0
  · rw [if_pos (Or.inl h0)]
    refine ⟨_, rfl, rfl, by simp, fun idx hi => ?_⟩
    have := rank_lt hi
    omega
  · rw [if_neg (by simp [h0]; exact hne)]
    refine ⟨_, rfl, rfl, by simp, fun idx hi => ?_⟩
    obtain ⟨y, hy, hy'⟩ := hmed idx
    refine ⟨y, ?_, hy'⟩
    dsimp only
    rw [writes_zipIdx (fun oi : List Nat => medianSorted ((List.range (v.shape.getD axis 0)).map fun k =>
      mem (v.addr (oi.take axis ++ [k] ++ oi.drop axis)))) _ _ (by rw [odometerAll_eq, length_indices, outShape_size, List.length_replicate]),
      odometerAll_eq]
    cases hos : v.shape.eraseIdx axis with
    | nil =>
      rw [hos] at hi
      have : idx = [] := List.length_eq_zero_iff.1 (by simpa using hi.length_eq)
      subst this
      have hl : v.shape.length = 1 := by
        have := congrArg List.length hos
        rw [List.length_eraseIdx, if_pos hax] at this
        simp at this; omega
      have ha : axis = 0 := by omega
      subst ha
      rw [← hy]
      simp only [List.isEmpty_nil, if_true, rank]
      have e : indices [1] = [[0]] := rfl
      rw [e]
      simp only [List.map_cons, List.map_nil, List.getElem?_cons_zero, Option.some.injEq]
      congr 1
      unfold Nd.lane
      apply List.map_congr_left
      intro k _
      show mem (v.addr [k, 0]) = mem (v.addr [k])
      obtain ⟨st, hst⟩ := List.length_eq_one_iff.1 (hw.len.trans hl)
      unfold View.addr
      rw [hst]
      rfl
    | cons n os =>
      rw [← hos]
      have : (v.shape.eraseIdx axis).isEmpty = false := by rw [hos]; rfl
      rw [this]
      simp only [Bool.false_eq_true, if_false]
      rw [List.getElem?_map, indices_getElem?_rank hi, Option.map_some, Option.some.injEq, ← hy]
      congr 1
      unfold Nd.lane
      apply List.map_congr_left
      intro k _
      show mem _ = mem _
      congr 2
      have hl := hi.length_eq
      rw [List.length_eraseIdx, if_pos hax] at hl
      rw [insertIdx_take_drop (by omega)]

/-- C48 (partial): `nanmedian` along a non-empty axis skips NaN in every lane. -/
theorem C48_nanmedian_axis_partial {v : View} (hw : v.WF) (mem : Int → Option ℚ) {axis : Nat} (hax : axis < v.shape.length)
    (hne : v.shape.getD axis 0 ≠ 0) :
    ∃ r, nanmedianAxis mem v axis = .ok r ∧
      r.shape = (if (v.shape.eraseIdx axis).isEmpty then [1] else v.shape.eraseIdx axis) ∧
      r.data.length = size (v.shape.eraseIdx axis) ∧
      ∀ idx, InShape (v.shape.eraseIdx axis) idx → ∃ y, r.data[rank (v.shape.eraseIdx axis) idx]? = some y ∧
        SkipNaN IsMedian ((v.denote mem).lane axis idx) y := by
  unfold nanmedianAxis
  rw [if_pos hax]
  dsimp only
  rw [sizeOf_eq, outShape_size]
  by_cases h0 : size (v.shape.eraseIdx axis) = 0
  · rw [if_pos (Or.inl h0)]
    refine ⟨_, rfl, rfl, by simp, fun idx hi => ?_⟩
    have := rank_lt hi
    omega
  · rw [if_neg (by simp [h0]; exact hne)]
    refine ⟨_, rfl, rfl, by simp, fun idx hi =>
      ⟨medianSorted (((v.denote mem).lane axis idx).filterMap id), ?_, ?_⟩⟩
    · dsimp only
      rw [lanes_eq (fun b => medianSorted (((List.range (v.shape.getD axis 0)).map fun j : Nat =>
        mem (v.offset + b + v.strides.getD axis 0 * j)).filterMap id)) hw _ (by simp),
        List.getElem?_map, indices_getElem?_rank hi, Option.map_some, Option.some.injEq]
      congr 2
      unfold Nd.lane
      apply List.map_congr_left
      intro j _
      rw [← lane_addr hw hax hi]
      rfl
    · unfold SkipNaN
      split
      · next h => rw [h]; rfl
      · next h => exact medianSorted_spec h

example : medianAxis (fun a => [(1 : ℚ), 5, 2, 4, 8, 0].getD (a / 8).toNat 0) (View.fresh [2, 3] 8) 0 =
    .ok ⟨[3], [some (5 / 2), some (13 / 2), some 1]⟩ := by decide +kernel
example : medianAxis (fun a => [(1 : ℚ), 5, 2].getD (a / 8).toNat 0) (View.fresh [3] 8) 0 = .ok ⟨[1], [some 2]⟩ := by decide +kernel

/-- C48 fails for an empty axis: the medians are 0, not NaN. -/
theorem C48_median_counterexample :
    medianAxis (fun _ => (7 : ℚ)) (View.fresh [2, 0] 8) 1 = .ok ⟨[2], [some 0, some 0]⟩ ∧
    nanmedianAxis (fun _ => some (7 : ℚ)) (View.fresh [2, 0] 8) 1 = .ok ⟨[2], [some 0, some 0]⟩ := by decide +kernel

end Props
