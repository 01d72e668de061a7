import Verif.Lemmas.Sort
import Verif.Lemmas.Float
import Verif.Model.Float
import Verif.Props.Reshape
/-!
# Properties C21 (sort, argsort, lexsort) and C57 (copy)
-/

namespace Props
open Spec Rumpy

/-! ### C57: copy -/

/-- C57: `copy` returns an array of the same shape with the same elements, whichever path it takes.
The alignment hypothesis concerns only the typed path for 8-byte elements. -/
theorem C57_copy (eight : Bool) (mem : Int → α) (v : View) (hw : v.WF)
    (hal : eight = true → ∀ s ∈ v.strides, (v.item : Int) ∣ s) (zero : α) :
    (copyArr eight mem v zero).Is (v.denote mem) := copyArr_eq eight mem hw hal zero

example : copyArr true id ⟨0, [2, 3], [0, 8], 8, false, false⟩ 0 = ⟨[2, 3], [0, 8, 16, 0, 8, 16]⟩ := by decide
example : copyArr true id ⟨0, [2, 3], [8, 0], 8, false, false⟩ 0 = ⟨[2, 3], [0, 0, 0, 8, 8, 8]⟩ := by decide
example : copyArr true id ⟨8, [2, 2], [8, -8], 8, false, false⟩ 0 = ⟨[2, 2], [8, 0, 16, 8]⟩ := by decide
example : copyArr false id ⟨8, [2, 2], [8, -8], 8, false, false⟩ 0 = ⟨[2, 2], [8, 0, 16, 8]⟩ := by decide

/-! ### C21: argsort along an axis -/

/-- The keys of a lane, as read for comparison. -/
def sortKeys (rd : α → φ) (key : φ → κ) (l : List α) : List κ := l.map fun x => key (rd x)

theorem stableOrder_short [LinearOrder κ] (keys : List κ) (h : keys.length ≤ 1) :
    StableOrder keys (List.replicate keys.length 0) := by
  rcases keys with _ | ⟨k, _ | ⟨k', ks⟩⟩
  · exact ⟨by simp, by simp⟩
  · exact ⟨by simp, by simp⟩
  · simp at h

/-- C21: `argsort` along an axis returns, in each lane, the stable increasing order of the values of
that lane, for every array whatever its memory layout. -/
theorem C21_argsort {α φ κ : Type} [LinearOrder κ] (rd : α → φ) (key : φ → κ) (mem : Int → α) (v : View)
    (axis : Nat) (hax : axis < v.shape.length) :
    ∃ r nd, argsortAxis rd key mem v axis = .ok r ∧ r.Is nd ∧ nd.shape = v.shape ∧
      ∀ idx, InShape (v.shape.eraseIdx axis) idx →
        StableOrder (sortKeys rd key ((v.denote mem).lane axis idx)) (nd.lane axis idx) := by
  unfold argsortAxis
  rw [if_pos hax]
  dsimp only
  rw [sizeOf_eq]
  by_cases h1 : v.shape.getD axis 0 ≤ 1
  · rw [if_pos h1]
    refine ⟨_, ⟨v.shape, fun _ => 0⟩, rfl, ⟨rfl, ?_⟩, rfl, ?_⟩
    · simp [Nd.toList, length_indices]
    · intro idx _
      have := stableOrder_short (sortKeys rd key ((v.denote mem).lane axis idx))
        (by simpa [sortKeys, Nd.lane, View.denote] using h1)
      simpa [Nd.lane, sortKeys, View.denote] using this
  · rw [if_neg h1]
    refine ⟨_, ⟨v.shape, fun i => ((sortPairs key (((v.denote mem).lane axis (i.eraseIdx axis)).map rd).zipIdx).map
      fun p => p.2).getD (i.getD axis 0) 0⟩, rfl, ⟨rfl, ?_⟩, rfl, ?_⟩
    · dsimp only
      rw [laneStores_eq _ (fun l => by rw [List.length_map, sortPairs_length, List.length_map]) mem v hax
        (by decide) (by simp) 0]
      rfl
    · intro idx hi
      rw [lane_mk v.shape hax (fun i => (sortPairs key (((v.denote mem).lane axis i).map rd).zipIdx).map
        fun p => p.2) 0 idx hi (by rw [List.length_map, sortPairs_length]; simp [Nd.lane, View.denote])]
      have := sortPairs_stable key (((v.denote mem).lane axis idx).map rd)
      rwa [List.map_map] at this

example : argsortAxis id id (fun p => [3, 1, 2, 1, 1, 0].getD p.toNat 0) (View.fresh [2, 3] 1) 1 =
    .ok ⟨[2, 3], [1, 2, 0, 2, 0, 1]⟩ := by decide

/-- C21: an axis out of range is rejected (by a panic), a valid one never. -/
theorem C21_argsort_returns_iff {α φ κ : Type} [LinearOrder κ] (rd : α → φ) (key : φ → κ) (mem : Int → α) (v : View)
    (axis : Nat) : argsortAxis rd key mem v axis = .panic ↔ v.shape.length ≤ axis := by
  unfold argsortAxis
  by_cases h : axis < v.shape.length
  · rw [if_pos h]
    dsimp only
    split <;> simp [h]
  · rw [if_neg h]; simp; omega

/-! ### C21: sort along an axis -/

/-- C21 (partial): `sort` along an axis rearranges each lane into the stable increasing order. It
holds for elements that survive the conversion to `f64` and back. Missing: 64-bit integers beyond
2^53 (`C21_sort_counterexample`), and NaN. -/
theorem C21_sort_partial {α φ κ : Type} [LinearOrder κ] (rd : α → φ) (wr : φ → α) (key : φ → κ) (eight : Bool)
    (mem : Int → α) (v : View) (hw : v.WF) (hitem : 0 < v.item)
    (hal : eight = true → ∀ s ∈ v.strides, (v.item : Int) ∣ s) (axis : Nat) (hax : axis < v.shape.length) (zero : α)
    (hrw : ∀ idx, InShape v.shape idx → wr (rd ((v.denote mem).get idx)) = (v.denote mem).get idx) :
    ∃ r nd, sortAxis rd wr key eight mem v axis zero = .ok r ∧ r.Is nd ∧ nd.shape = v.shape ∧
      ∀ idx, InShape (v.shape.eraseIdx axis) idx → ∃ p,
        StableOrder (sortKeys rd key ((v.denote mem).lane axis idx)) p ∧
        (nd.lane axis idx).map some = p.map fun j => ((v.denote mem).lane axis idx)[j]? := by
  have hcopy := copyArr_eq eight mem hw hal zero
  unfold sortAxis
  rw [if_pos hax]
  dsimp only
  by_cases h1 : v.shape.getD axis 0 ≤ 1
  · rw [if_pos h1]
    refine ⟨_, v.denote mem, rfl, hcopy, rfl, ?_⟩
    intro idx _
    refine ⟨_, stableOrder_short (sortKeys rd key ((v.denote mem).lane axis idx))
      (by simpa [sortKeys, Nd.lane, View.denote] using h1), ?_⟩
    have hl : (sortKeys rd key ((v.denote mem).lane axis idx)).length = ((v.denote mem).lane axis idx).length := by
      simp [sortKeys]
    have h2 : ((v.denote mem).lane axis idx).length ≤ 1 := by simpa [Nd.lane, View.denote] using h1
    rw [hl]
    generalize (v.denote mem).lane axis idx = l at h2
    rcases l with _ | ⟨x, _ | ⟨y, l⟩⟩
    · rfl
    · rfl
    · simp at h2
  · rw [if_neg h1]
    refine ⟨_, ⟨v.shape, fun i => ((sortPairs key (((v.denote mem).lane axis (i.eraseIdx axis)).map rd).zipIdx).map
      fun p => wr p.1).getD (i.getD axis 0) zero⟩, rfl, ⟨hcopy.1, ?_⟩, rfl, ?_⟩
    · dsimp only
      rw [laneStores_eq _ (fun l => by rw [List.length_map, sortPairs_length, List.length_map]) mem v hax
        hitem (by rw [hcopy.2]; simp [Nd.toList, length_indices, View.denote]) zero]
      rfl
    · intro idx hi
      rw [lane_mk v.shape hax (fun i => (sortPairs key (((v.denote mem).lane axis i).map rd).zipIdx).map
        fun p => wr p.1) zero idx hi (by rw [List.length_map, sortPairs_length]; simp [Nd.lane, View.denote])]
      refine ⟨(sortPairs key (((v.denote mem).lane axis idx).map rd).zipIdx).map Prod.snd, ?_, ?_⟩
      · have := sortPairs_stable key (((v.denote mem).lane axis idx).map rd)
        rwa [List.map_map] at this
      · rw [List.map_map, List.map_map]
        apply List.map_congr_left
        intro p hp
        have hm := sortPairs_mem key hp
        rw [List.getElem?_map] at hm
        simp only [Function.comp_apply]
        cases hx : ((v.denote mem).lane axis idx)[p.2]? with
        | none => rw [hx] at hm; simp at hm
        | some x =>
          rw [hx] at hm
          simp only [Option.map_some, Option.some.injEq] at hm
          rw [← hm]
          congr 1
          unfold Nd.lane at hx
          rw [List.getElem?_map] at hx
          by_cases hlt : p.2 < (v.denote mem).shape.getD axis 0
          · rw [List.getElem?_range hlt] at hx
            simp only [Option.map_some, Option.some.injEq] at hx
            rw [← hx]
            exact hrw _ (inShape_insertIdx hax hi hlt)
          · rw [List.getElem?_eq_none (by rw [List.length_range]; omega)] at hx
            simp at hx

/-- A stable rearrangement is a sorted permutation. -/
theorem SortedCopy.of_stable [LinearOrder κ] {k : α → κ} {a b : List α} {p : List Nat} (h : StableOrder (a.map k) p)
    (hb : b.map some = p.map fun j => a[j]?) : SortedCopy k a b := by
  constructor
  · have h1 : (b.map some).Perm (a.map some) := by
      rw [hb]
      refine (h.1.map _).trans ?_
      rw [List.length_map]
      apply List.Perm.of_eq
      apply List.ext_getElem
      · simp
      · intro i hi1 hi2
        simp
    have h2 := h1.filterMap id
    simpa [List.filterMap_map] using h2
  · have : (b.map some).Pairwise fun x y => ∀ x' y', x = some x' → y = some y' → k x' ≤ k y' := by
      rw [hb, List.pairwise_map]
      refine h.2.imp ?_
      rintro i j ⟨x, y, hx, hy, hxy⟩ x' y' hx' hy'
      rw [List.getElem?_map] at hx hy
      rw [hx'] at hx; rw [hy'] at hy
      obtain rfl := Option.some.inj hx
      obtain rfl := Option.some.inj hy
      rcases hxy with hxy | hxy
      · exact hxy.le
      · exact hxy.1.le
    rw [List.pairwise_map] at this
    exact this.imp fun h => h _ _ rfl rfl

/-- C21 (partial): each lane of the result is a sorted permutation of the lane of the input. Missing:
as for `C21_sort_partial`. -/
theorem C21_sorted_partial {α φ κ : Type} [LinearOrder κ] (rd : α → φ) (wr : φ → α) (key : φ → κ) (eight : Bool)
    (mem : Int → α) (v : View) (hw : v.WF) (hitem : 0 < v.item)
    (hal : eight = true → ∀ s ∈ v.strides, (v.item : Int) ∣ s) (axis : Nat) (hax : axis < v.shape.length) (zero : α)
    (hrw : ∀ idx, InShape v.shape idx → wr (rd ((v.denote mem).get idx)) = (v.denote mem).get idx) :
    ∃ r nd, sortAxis rd wr key eight mem v axis zero = .ok r ∧ r.Is nd ∧ nd.shape = v.shape ∧
      ∀ idx, InShape (v.shape.eraseIdx axis) idx →
        SortedCopy (fun x => key (rd x)) ((v.denote mem).lane axis idx) (nd.lane axis idx) := by
  obtain ⟨r, nd, h1, h2, h3, h4⟩ := C21_sort_partial rd wr key eight mem v hw hitem hal axis hax zero hrw
  refine ⟨r, nd, h1, h2, h3, fun idx hi => ?_⟩
  obtain ⟨p, hp, hb⟩ := h4 idx hi
  exact SortedCopy.of_stable hp hb

example : sortAxis id id id true (fun p => [3, 1, 2, 1, 1, 0].getD p.toNat 0) (View.fresh [2, 3] 1) 1 0 =
    .ok ⟨[2, 3], [1, 2, 3, 0, 1, 1]⟩ := by decide
example : sortAxis id id id true (fun p => [3, 1, 2, 1, 1, 0].getD p.toNat 0) ⟨0, [3, 2], [1, 3], 1, false, true⟩ 0 0 =
    .ok ⟨[3, 2], [1, 0, 2, 1, 3, 1]⟩ := by decide

/-- C21 (partial), 64-bit integers: the same for `int64` arrays whose elements are at most 2^53 in
absolute value. -/
theorem C21_sort_i64_partial (mem : Int → Int) (v : View) (hw : v.WF) (hitem : 0 < v.item)
    (hal : ∀ s ∈ v.strides, (v.item : Int) ∣ s) (axis : Nat) (hax : axis < v.shape.length)
    (hsm : ∀ idx, InShape v.shape idx → ((v.denote mem).get idx).natAbs ≤ 2 ^ 53) :
    ∃ r nd, sortAxis intToF64 (f64ToInt (-2 ^ 63) (2 ^ 63 - 1)) id true mem v axis 0 = .ok r ∧ r.Is nd ∧
      nd.shape = v.shape ∧
      ∀ idx, InShape (v.shape.eraseIdx axis) idx →
        SortedCopy id ((v.denote mem).lane axis idx) (nd.lane axis idx) := by
  obtain ⟨r, nd, h1, h2, h3, h4⟩ := C21_sorted_partial intToF64 (f64ToInt (-2 ^ 63) (2 ^ 63 - 1)) id true mem v hw hitem
    (fun _ => hal) axis hax 0 (fun idx hi => by
      exact viaF64_exact (hsm idx hi))
  refine ⟨r, nd, h1, h2, h3, fun idx hi => ?_⟩
  obtain ⟨hp, hs⟩ := h4 idx hi
  refine ⟨hp, hs.imp_of_mem ?_⟩
  intro x y hx hy hxy
  have key : ∀ x ∈ (v.denote mem).lane axis idx, intToF64 x = x := by
    intro x hx
    unfold Nd.lane at hx
    obtain ⟨j, hj, rfl⟩ := List.mem_map.1 hx
    exact intToF64_exact (hsm _ (inShape_insertIdx hax hi (List.mem_range.1 hj)))
  dsimp only [id] at hxy ⊢
  rw [key x (hp.mem_iff.1 hx), key y (hp.mem_iff.1 hy)] at hxy
  exact hxy

/-- C21 fails for large 64-bit integers: sorting `[2^53 + 1, 0]` changes an element, and
`[2^53 + 1, 2^53]` counts as sorted already. -/
theorem C21_sort_counterexample :
    sortAxis intToF64 (f64ToInt (-2 ^ 63) (2 ^ 63 - 1)) id true (fun p => [2 ^ 53 + 1, 0].getD (p.toNat / 8) 0)
      (View.fresh [2] 8) 0 0 = .ok ⟨[2], [0, 2 ^ 53]⟩ ∧
    argsortAxis intToF64 id (fun p => [2 ^ 53 + 1, 2 ^ 53].getD (p.toNat / 8) 0) (View.fresh [2] 8) 0 =
      .ok ⟨[2], [0, 1]⟩ := by
  decide

/-! ### C21: axis=None -/

theorem reshape_flat {v : View} (hc : v.cFlag = true) :
    ∃ w, v.reshape [Rumpy.sizeOf v.shape] = some w ∧ w.shape = [size v.shape] := by
  have h := (C08_reshape_succeeds_iff v [Rumpy.sizeOf v.shape]).2 ⟨by simp [size, sizeOf_eq], Or.inl hc⟩
  obtain ⟨w, hw⟩ := Option.isSome_iff_exists.1 h
  refine ⟨w, hw, ?_⟩
  unfold View.reshape at hw
  split at hw
  · simp at hw
  · split at hw
    · simp at hw
    · simp only [Option.some.injEq] at hw
      rw [← hw]; simp [View.viewWith, sizeOf_eq]

theorem lane_flat (a : Nd α) {n : Nat} (h : a.shape = [n]) : a.lane 0 [] = a.toList := by
  unfold Nd.lane Nd.toList
  rw [h]
  simp [indices, List.map_flatMap, Function.comp_def, List.flatMap_singleton']
  rw [List.map_eq_flatMap]

/-- C21: with `axis=None` a C-contiguous array is sorted as the list of its elements in row-major
order. -/
theorem C21_argsort_flat_partial {α φ κ : Type} [LinearOrder κ] (rd : α → φ) (key : φ → κ) (mem : Int → α) (v : View)
    (hw : v.WF) (hc : v.cFlag = true) :
    ∃ r, overFlat v (fun w => argsortAxis rd key mem w 0) = .ok r ∧ r.shape = [size v.shape] ∧
      StableOrder (sortKeys rd key (v.denote mem).toList) r.data := by
  obtain ⟨w, hw', hs⟩ := reshape_flat hc
  obtain ⟨_, _, hlist⟩ := C08_reshape_partial mem v w hw _ hc hw'
  obtain ⟨r, nd, h1, h2, h3, h4⟩ := C21_argsort rd key mem w 0 (by simp [hs])
  refine ⟨r, by unfold overFlat; rw [hw']; exact h1, by rw [h2.1, h3, hs], ?_⟩
  have := h4 [] (by simp [hs, InShape])
  rw [lane_flat nd (h3.trans hs), lane_flat (w.denote mem) hs, hlist] at this
  rwa [h2.2]

example : overFlat (View.fresh [2, 2] 8) (fun w => argsortAxis id id (fun p => [3, 1, 2, 1].getD (p.toNat / 8) 0) w 0) =
    .ok ⟨[4], [1, 3, 2, 0]⟩ := by decide

/-- C21: with `axis=None` the call panics exactly on arrays that are neither C- nor F-contiguous. -/
theorem C21_flat_panics_iff {α φ κ : Type} [LinearOrder κ] (rd : α → φ) (key : φ → κ) (mem : Int → α) (v : View) :
    overFlat v (fun w => argsortAxis rd key mem w 0) = .panic ↔ v.cFlag = false ∧ v.fFlag = false := by
  unfold overFlat
  have h := C08_reshape_succeeds_iff v [Rumpy.sizeOf v.shape]
  cases hr : v.reshape [Rumpy.sizeOf v.shape] with
  | none =>
    rw [hr] at h
    simp [size, sizeOf_eq] at h
    simpa using h
  | some w =>
    rw [hr] at h
    simp [size, sizeOf_eq] at h
    have hs : w.shape.length = 1 := by
      unfold View.reshape at hr
      split at hr
      · simp at hr
      · split at hr
        · simp at hr
        · simp only [Option.some.injEq] at hr
          rw [← hr]; simp [View.viewWith]
    simp only [C21_argsort_returns_iff, hs]
    rcases h with h | h <;> simp [h]

/-- C21 fails for `axis=None` on a non-contiguous array: sorting every second element panics; and on
an F-contiguous array the positions refer to column-major order: for the transpose of `[[0, 3], [1, 2]]`
(elements `0, 1, 3, 2` in row-major order) the answer should be `[0, 1, 3, 2]`. -/
theorem C21_flat_counterexample :
    overFlat ⟨0, [2], [2], 1, false, false⟩ (fun w => argsortAxis id id id w 0) = .panic ∧
    (View.denote (fun p => [0, 3, 1, 2].getD p.toNat 0) (View.fresh [2, 2] 1).transpose).toList = [0, 1, 3, 2] ∧
    overFlat (View.fresh [2, 2] 1).transpose (fun w => argsortAxis id id (fun p => [0, 3, 1, 2].getD p.toNat 0) w 0) =
      .ok ⟨[4], [0, 2, 3, 1]⟩ := by
  decide

/-! ### C21: lexsort -/

theorem keyAt_eq {κ : Type} (mem : Int → κ) {v : View} (hw : v.WF) (h1 : v.shape.length = 1) {i : Nat}
    (hi : i < size v.shape) : keyAt mem v i = (v.denote mem).get [i] := by
  obtain ⟨n, hn⟩ : ∃ n, v.shape = [n] := by
    rcases hs : v.shape with _ | ⟨n, _ | ⟨m, s⟩⟩
    · simp [hs] at h1
    · exact ⟨n, rfl⟩
    · simp [hs] at h1
  have hin : InShape v.shape [i] := by rw [hn] at hi ⊢; exact ⟨by simpa [size] using hi, trivial⟩
  unfold keyAt
  by_cases hc : v.cFlag = true
  · rw [if_pos hc]
    show _ = mem (v.addr [i])
    rw [cFlag_addr hw hc hin, hn]
    simp [rank, size]
  · rw [if_neg hc]
    show _ = mem (v.addr [i])
    obtain ⟨s, hs⟩ : ∃ s, v.strides = [s] := by
      have := hw.len
      rw [h1] at this
      rcases hs : v.strides with _ | ⟨n, _ | ⟨m, s⟩⟩
      · simp [hs] at this
      · exact ⟨n, rfl⟩
      · simp [hs] at this
    unfold View.addr
    rw [hs]
    simp [byteOffset]

/-- C21: `lexsort` accepts exactly a non-empty sequence of one-dimensional keys of one length. -/
theorem C21_lexsort_succeeds_iff {κ : Type} [LinearOrder κ] (keys : List ((Int → κ) × View)) :
    (lexsort keys).isSome ↔ keys ≠ [] ∧ ∃ n, ∀ k ∈ keys, k.2.shape = [n] := by
  have one : ∀ s : List Nat, s.length = 1 → s = [size s] := by
    intro s h
    rcases s with _ | ⟨a, _ | ⟨b, s⟩⟩
    · simp at h
    · simp [size]
    · simp at h
  rcases keys with _ | ⟨k0, ks⟩
  · simp [lexsort]
  · unfold lexsort
    dsimp only
    simp only [sizeOf_eq]
    by_cases h1 : ((k0 :: ks).any fun k => k.2.shape.length != 1) = true
    · rw [if_pos h1]
      simp only [Option.isSome_none, Bool.false_eq_true, false_iff, not_and, not_exists]
      intro _ n hn
      obtain ⟨k, hk, hb⟩ := List.any_eq_true.1 h1
      rw [hn k hk] at hb
      simp at hb
    rw [if_neg h1]
    have h1' : ∀ k ∈ k0 :: ks, k.2.shape.length = 1 := by
      intro k hk
      by_contra hne
      exact h1 (List.any_eq_true.2 ⟨k, hk, by simpa using hne⟩)
    by_cases h2 : ((k0 :: ks).any fun k => size k.2.shape != size k0.2.shape) = true
    · rw [if_pos h2]
      simp only [Option.isSome_none, Bool.false_eq_true, false_iff, not_and, not_exists]
      intro _ n hn
      obtain ⟨k, hk, hb⟩ := List.any_eq_true.1 h2
      rw [hn k hk, hn k0 (by simp)] at hb
      simp at hb
    rw [if_neg h2]
    have h2' : ∀ k ∈ k0 :: ks, size k.2.shape = size k0.2.shape := by
      intro k hk
      by_contra hne
      exact h2 (List.any_eq_true.2 ⟨k, hk, by simpa using hne⟩)
    have : ∃ n, ∀ k ∈ k0 :: ks, k.2.shape = [n] :=
      ⟨size k0.2.shape, fun k hk => by rw [← h2' k hk]; exact one _ (h1' k hk)⟩
    constructor
    · intro _; exact ⟨by simp, this⟩
    · intro _; split <;> rfl

/-- C21: `lexsort` returns the positions ordered by the last key, ties by the key before it, and so
on, remaining ties by position. -/
theorem C21_lexsort {κ : Type} [LinearOrder κ] (keys : List ((Int → κ) × View)) (n : Nat) (hne : keys ≠ [])
    (hs : ∀ k ∈ keys, k.2.shape = [n]) (hw : ∀ k ∈ keys, k.2.WF) :
    ∃ r, lexsort keys = some r ∧ r.shape = [n] ∧ r.data.Perm (List.range n) ∧
      r.data.Pairwise (LexBefore (keys.map fun k i => (k.2.denote k.1).get [i])) := by
  rcases keys with _ | ⟨k0, ks⟩
  · exact absurd rfl hne
  have e1 : ((k0 :: ks).any fun k => k.2.shape.length != 1) = false := by
    rw [List.any_eq_false]
    intro k hk
    simp [hs k hk]
  have e2 : ((k0 :: ks).any fun k => Rumpy.sizeOf k.2.shape != Rumpy.sizeOf k0.2.shape) = false := by
    rw [List.any_eq_false]
    intro k hk
    simp [hs k hk, hs k0 (by simp)]
  unfold lexsort
  dsimp only
  rw [e1, e2, if_neg (by simp), if_neg (by simp)]
  have hn : Rumpy.sizeOf k0.2.shape = n := by rw [sizeOf_eq, hs k0 (by simp)]; simp [size]
  rw [hn]
  by_cases h0 : n = 0
  · rw [if_pos h0]
    exact ⟨_, rfl, by simp [h0], by simp [h0], by simp⟩
  · rw [if_neg h0]
    obtain ⟨hp, ho⟩ := lexsort_order ((k0 :: ks).map fun k => keyAt k.1 k.2) n
    refine ⟨_, rfl, rfl, hp, ?_⟩
    refine ho.imp_of_mem ?_
    intro a b ha hb hab
    have ha : a < n := List.mem_range.1 (hp.mem_iff.1 ha)
    have hb : b < n := List.mem_range.1 (hp.mem_iff.1 hb)
    have hk : ∀ k ∈ k0 :: ks, ∀ i, i < n → keyAt k.1 k.2 i = (k.2.denote k.1).get [i] := by
      intro k hk i hi
      apply keyAt_eq _ (hw k hk)
      · simp [hs k hk]
      · rw [hs k hk]; simpa [size] using hi
    rcases hab with ⟨k, rest, ⟨pre, he⟩, h1, h2⟩ | ⟨h1, h2⟩
    · left
      obtain ⟨l1, l2, hl, hl1, hl2⟩ := List.map_eq_append_iff.1 he
      obtain ⟨k', rest', hl2', hkk, hrr⟩ := List.map_eq_cons_iff.1 hl2
      have hmem : ∀ q ∈ k' :: rest', q ∈ k0 :: ks := by
        intro q hq
        rw [hl, hl2']
        exact List.mem_append_right _ hq
      refine ⟨fun i => (k'.2.denote k'.1).get [i], rest'.map fun k i => (k.2.denote k.1).get [i],
        ⟨l1.map fun k i => (k.2.denote k.1).get [i], by rw [hl, hl2']; simp⟩, ?_, ?_⟩
      · intro r hr
        obtain ⟨q, hq, rfl⟩ := List.mem_map.1 hr
        have := h1 (keyAt q.1 q.2) (by rw [← hrr]; exact List.mem_map.2 ⟨q, hq, rfl⟩)
        rwa [hk q (hmem q (by simp [hq])) a ha, hk q (hmem q (by simp [hq])) b hb] at this
      · rw [← hkk] at h2
        rwa [hk k' (hmem k' (by simp)) a ha, hk k' (hmem k' (by simp)) b hb] at h2
    · right
      refine ⟨?_, h2⟩
      intro r hr
      obtain ⟨q, hq, rfl⟩ := List.mem_map.1 hr
      have := h1 (keyAt q.1 q.2) (List.mem_map.2 ⟨q, hq, rfl⟩)
      rwa [hk q hq a ha, hk q hq b hb] at this

example : lexsort [((fun p => [1, 0, 0, 1].getD p.toNat 0), View.fresh [4] 1),
    ((fun p => [2, 2, 1, 9, 1].getD p.toNat 0), ⟨4, [4], [-1], 1, false, false⟩)] = some ⟨[4], [2, 0, 3, 1]⟩ := by decide

end Props
