import Verif.Lemmas.Builders
import Verif.Props.Moments
import Verif.Props.Select
import Verif.Props.Search
import Verif.Spec.Assign
/-! # C73: index iterators, open and dense grids, filling the diagonal -/

namespace Props
open Spec Rumpy

/-! ### Iterators -/

/-- C73: the first `n` items of `ndindex(shape)` are the first `n` indices of the shape in row-major order; with no
axes there is one empty index, with an empty axis there is none. -/
theorem C73_ndindex (s : List Nat) (n : Nat) : calls NdIter.next n (Rumpy.ndindex s) = (indices s).take n := by
  rw [calls_next]
  unfold Rumpy.ndindex
  split
  · next h =>
    have hs : s = [] := List.length_eq_zero_iff.1 h
    subst hs
    show odometer [] (min n (1 - 0)) [] = _
    rw [odometer_take]
    rfl
  · show odometer s (min n (Rumpy.sizeOf s - 0)) _ = _
    rw [odometer_take, Nat.sub_zero, sizeOf_eq, odometer_eq]

/-- C73: once all indices have been given there is never another one. -/
theorem C73_ndindex_stops (it : NdIter) (h : it.next.1 = none) : it.next.2 = it := by
  unfold NdIter.next at *
  split
  · rfl
  · next hf => rw [if_neg hf] at h; exact absurd h (by simp)

/-- C73 (partial): `ndenumerate` pairs the indices in row-major order with the elements there, in any layout.
Missing: the elements pass through `f64` (`conv`), which is not exact for large integers and drops imaginary parts. -/
theorem C73_ndenumerate_partial (conv : α → β) (h : Held α) (n : Nat) :
    calls (NdIter.nextPair conv h) n (Rumpy.ndenumerate h) = ((indices h.nd.shape).map fun i => (i, conv (h.nd.get i))).take n := by
  rw [calls_nextPair]
  show (odometer h.view.shape (min n (Rumpy.sizeOf h.view.shape - 0)) _).map _ = _
  rw [odometer_take, Nat.sub_zero, sizeOf_eq]
  show (List.take n (odometer h.view.shape (size h.view.shape) (List.replicate h.view.shape.length 0))).map _ = _
  rw [odometer_eq, List.map_take]
  rfl

example : calls NdIter.next 10 (Rumpy.ndindex [2, 2]) = [[0, 0], [0, 1], [1, 0], [1, 1]] := by decide
example : calls NdIter.next 10 (Rumpy.ndindex []) = [[]] ∧ calls NdIter.next 10 (Rumpy.ndindex [2, 0]) = [] := by decide
example : calls (NdIter.nextPair id ⟨fun a => a, (View.fresh [2, 2] 1).transpose⟩) 10 (Rumpy.ndenumerate ⟨fun a => a, (View.fresh [2, 2] 1).transpose⟩) =
    [([0, 0], 0), ([0, 1], 2), ([1, 0], 1), ([1, 1], 3)] := by decide

/-! ### Grids -/

/-- C73 (partial): `ix_` lays each contiguous vector along its own axis. Missing: strided vectors. -/
theorem C73_ix_partial (hs : List (Held α)) (h : ∀ x ∈ hs, x.view.WF ∧ x.view.shape.length = 1 ∧ x.view.cFlag = true) :
    ∃ rs, ixOpen hs = .ok rs ∧ rs.length = hs.length ∧
      ∀ (k : Nat) (x r : Held α), hs[k]? = some x → rs[k]? = some r →
        r.nd.Same ⟨(List.replicate hs.length 1).set k (x.nd.shape.headD 0), fun idx => x.nd.get [idx.getD k 0]⟩ := by
  obtain ⟨rs, h1, h2, h3⟩ := ixLoop_ok hs.length hs 0 (by simp) h
  refine ⟨rs, h1, h2, ?_⟩
  intro k x r hx hr
  have := h3 k x r hx hr
  rwa [Nat.zero_add] at this

/-- C73: `ix_` refuses an argument that is not a vector, when those before it are contiguous vectors. -/
theorem C73_ix_rejects (n : Nat) : ∀ (pre : List (Held α)) (x : Held α) (post : List (Held α)) (i : Nat), i + pre.length < n →
    (∀ y ∈ pre, y.view.shape.length = 1 ∧ y.view.cFlag = true) → x.view.shape.length ≠ 1 → ixLoop n (pre ++ x :: post) i = .error
  | [], x, post, i, _, _, hx => by
    show ixLoop n (x :: post) i = _
    rw [ixLoop, if_pos hx]
  | y :: pre, x, post, i, hn, hall, hx => by
    rw [List.length_cons] at hn
    obtain ⟨h1, h2⟩ := hall y List.mem_cons_self
    obtain ⟨m, hm⟩ := List.length_eq_one_iff.1 h1
    show ixLoop n (y :: (pre ++ x :: post)) i = _
    rw [ixLoop, if_neg (by simp [h1])]
    have hs : (y.view.reshape ((List.replicate n 1).set i (Rumpy.sizeOf y.view.shape))).isSome := by
      rw [C08_reshape_succeeds_iff, sizeOf_eq, hm, size_axis _ _ _ (by omega)]
      exact ⟨by simp [size], .inl h2⟩
    obtain ⟨v, hv⟩ := Option.isSome_iff_exists.1 hs
    rw [hv]
    dsimp only
    rw [C73_ix_rejects n pre x post (i + 1) (by omega) (fun z hz => hall z (List.mem_cons_of_mem _ hz)) hx]

example : (match ixOpen [⟨fun a => a, View.fresh [2] 1⟩, ⟨fun a => 10 + a, View.fresh [3] 1⟩] with
    | .ok rs => rs.map fun r => (r.view.shape, r.nd.toList) | _ => []) = [([2, 1], [0, 1]), ([1, 3], [10, 11, 12])] := by decide

/-- C73: `ix_` panics for `x[::2]`. -/
theorem C73_ix_counterexample :
    ∃ v : View, v.WF ∧ v.shape = [2] ∧ (match ixOpen [(⟨fun a => a, v⟩ : Held Int)] with | .panic => true | _ => false) = true := by
  refine ⟨(View.fresh [4] 8).viewWith 0 [2] [16], View.WF.viewWith rfl, rfl, ?_⟩
  decide

/-- C73 (partial): the points of `start:stop:step` with an integer step are exactly those of the arithmetic progression
before `stop`, and the loop ends. Missing: steps that are not integers. -/
theorem C73_points_partial (start stop : ℚ) (step : Int) (hstep : step ≠ 0) :
    ∃ N : Nat, ∀ fuel, N ≤ fuel → IsRange start stop step (gridPoints fuel start stop (gridStep (.int step))) := by
  rcases lt_or_gt_of_ne hstep with hs | hs
  · have hsq : (step : ℚ) < 0 := by exact_mod_cast hs
    obtain ⟨N, hN⟩ := exists_nat_ge ((start - stop) / -(step : ℚ))
    refine ⟨N, fun fuel hf => rangeLoop_spec step hstep stop fuel start (fun h => absurd h (by omega)) (fun _ => ?_)⟩
    have h1 : (N : ℚ) ≤ fuel := by exact_mod_cast hf
    rw [div_le_iff₀ (by linarith)] at hN
    nlinarith
  · have hsq : (0 : ℚ) < step := by exact_mod_cast hs
    obtain ⟨N, hN⟩ := exists_nat_ge ((stop - start) / (step : ℚ))
    refine ⟨N, fun fuel hf => rangeLoop_spec step hstep stop fuel start (fun _ => ?_) (fun h => absurd h (by omega))⟩
    have h1 : (N : ℚ) ≤ fuel := by exact_mod_cast hf
    rw [div_le_iff₀ hsq] at hN
    nlinarith

example : gridPoints 9 0 5 (gridStep (.int 2)) = [0, 2, 4] ∧ gridPoints 9 3 0 (gridStep (.int (-1))) = [3, 2, 1] := by decide +kernel

/-- C73: a fractional step is truncated: `mgrid[0:1:0.25]` is empty although 0, 1/4, 1/2 and 3/4 lie before 1. -/
theorem C73_points_counterexample :
    (∀ fuel, gridPoints fuel 0 1 (gridStep (.float (1 / 4))) = []) ∧ IsRange 0 1 (1 / 4) [0, 1 / 4, 1 / 2, 3 / 4] := by
  constructor
  · intro fuel
    have h : gridStep (.float (1 / 4)) = .integer 0 := by
      show GridStep.integer (truncInt (1 / 4)) = _
      congr 1
      decide +kernel
    rw [h]
    cases fuel <;> rfl
  · refine ⟨?_, ?_⟩
    · intro i
      constructor
      · intro h
        have h : i < 4 := h
        have h' : (i : ℚ) ≤ 3 := by exact_mod_cast (by omega : i ≤ 3)
        exact .inl ⟨by norm_num, by linarith⟩
      · rintro (⟨_, h⟩ | ⟨h, _⟩)
        · have h' : (i : ℚ) < 4 := by linarith
          exact_mod_cast h'
        · norm_num at h
    · intro i h
      have h : i < 4 := h
      interval_cases i <;> norm_num

theorem truncInt_natCast (n : Nat) : (truncInt (n : ℚ)).toNat = n := by
  unfold truncInt
  rw [if_pos (by positivity)]
  simp

/-- C73 (partial): `start:stop:nj` gives `n` evenly spaced points from `start` to `stop`. Missing: a negative count,
which is taken as zero and not by its size. -/
theorem C73_spaced_partial (fuel : Nat) (start stop : ℚ) (n : Nat) (hn : 2 ≤ n) :
    IsSpaced start stop n (gridPoints fuel start stop (gridStep (.points n))) := by
  have e : gridPoints fuel start stop (gridStep (.points n)) =
      (List.range n).map fun (i : Nat) => start + (i : ℚ) * ((stop - start) / ((n - 1 : Nat) : ℚ)) := by
    show (if (truncInt (n : ℚ)).toNat = 0 then _ else _) = _
    rw [truncInt_natCast, if_neg (by omega), if_neg (by omega)]
  rw [e]
  obtain ⟨m, rfl⟩ : ∃ m, n = m + 2 := ⟨n - 2, by omega⟩
  have hm : ((m + 2 - 1 : Nat) : ℚ) ≠ 0 := by
    rw [show m + 2 - 1 = m + 1 by omega]
    positivity
  refine ⟨by simp, ?_, ?_, (stop - start) / ((m + 2 - 1 : Nat) : ℚ), ?_⟩
  · rw [List.head?_map, List.range_succ_eq_map]; simp
  · rw [List.getLast?_map, List.getLast?_range]
    simp only [Nat.add_eq_zero_iff, OfNat.ofNat_ne_zero, and_false, if_false, Option.map_some]
    congr 1
    rw [mul_div_cancel₀ _ hm]
    ring
  · intro i hi
    simp only [List.getElem_map, List.getElem_range]
    push_cast
    ring

example : gridPoints 0 0 1 (gridStep (.points 5)) = [0, 1 / 4, 1 / 2, 3 / 4, 1] ∧ gridPoints 0 0 1 (gridStep (.points (-5))) = [] := by
  decide +kernel

/-- C73: from the points of each slice, `ogrid` gives the open grid and `mgrid` the dense grid, for two or more slices. -/
theorem C73_grid (item : Nat) (hitem : 0 < item) (zero : α) (dense : Bool) (xs : List (List α)) (hn : 2 ≤ xs.length) :
    ∃ rs, gridArrays item zero dense xs = .ok rs ∧ rs.length = xs.length ∧
      ∀ (k : Nat) (x : List α) (r : Held α), xs[k]? = some x → rs[k]? = some r →
        r.nd.Same (if dense then denseAxis (xs.map List.length) k x zero else openAxis xs.length k x zero) := by
  obtain ⟨rs, h1, h2, h3⟩ := gridLoop_ok hitem zero dense (xs.map List.length) xs 0 (by simp) (by
    intro k hk
    rw [Nat.zero_add, List.getD_eq_getElem _ _ (by simpa using hk), List.getElem_map, List.getD_eq_getElem _ _ hk])
  refine ⟨rs, ?_, h2, ?_⟩
  · match xs, hn with
    | a :: b :: xs, _ =>
      unfold gridArrays
      dsimp only
      rw [h1]
  · intro k x r hx hr
    have := h3 k x r hx hr
    rwa [Nat.zero_add, List.length_map] at this

/-- C73: a single slice gives the vector of its points. -/
theorem C73_grid_single (item : Nat) (hitem : 0 < item) (zero : α) (dense : Bool) (x : List α) :
    ∃ r, gridArrays item zero dense [x] = .ok [r] ∧ r.view.shape = [x.length] ∧ r.nd.toList = x := by
  refine ⟨_, rfl, rfl, ?_⟩
  have h1 := held_list x hitem zero
  rw [Rumpy.Nd.Same.toList h1]
  unfold Nd.toList
  rw [indices_singleton, List.map_map]
  symm
  apply List.ext_getElem
  · simp
  · intro i h1 h2
    simp [List.getElem?_eq_getElem h1]

example : (match gridArrays 8 0 true [[0, 1], [5, 6, 7]] with | .ok rs => rs.map fun r => (r.view.shape, r.nd.toList) | _ => []) =
    [([2, 3], [0, 0, 0, 1, 1, 1]), ([2, 3], [5, 6, 7, 5, 6, 7])] := by decide

/-! ### The diagonal -/

theorem valAt_cycled {val : Held α} (hw : val.view.WF) (hc : val.view.cFlag = true) (hv : Rumpy.sizeOf val.view.shape ≠ 0) (k : Nat) :
    cycled val.nd.toList k = some (valAt val (k % Rumpy.sizeOf val.view.shape)) := by
  unfold cycled
  rw [nd_length, ← contiguous_list val hw hc]
  have hlt := Nat.mod_lt k (Nat.pos_of_ne_zero hv)
  rw [List.getElem?_map, List.getElem?_range hlt]
  rfl

/-- C73 (partial): `fill_diagonal` stores the values, repeated as often as needed, at the indices whose coordinates
are all equal, and changes nothing else; for contiguous values. Missing: strided values, and arrays of rank three or
more with unequal lengths, which must be refused. -/
theorem C73_fill_partial (h val : Held α) (hs : Separate h.view) (hr : 2 ≤ h.view.shape.length) (hw : val.view.WF) (hc : val.view.cFlag = true)
    (hne : val.nd.toList ≠ []) :
    ∃ m, fillDiagonal h val false = .ok m ∧
      (∀ idx, InShape h.view.shape idx →
        (∀ i, OnDiagonal i idx → cycled val.nd.toList i = some ((h.view.denote m).get idx)) ∧
        ((¬ ∃ i, OnDiagonal i idx) → (h.view.denote m).get idx = h.nd.get idx)) ∧
      ∀ p, Foreign h.view p → m p = h.mem p := by
  have hv : Rumpy.sizeOf val.view.shape ≠ 0 := by
    intro he
    apply hne
    apply List.length_eq_zero_iff.1
    rw [nd_length, he]
  rcases hsh : h.view.shape with _ | ⟨a, _ | ⟨b, _ | ⟨c, s⟩⟩⟩
  · rw [hsh] at hr; simp at hr
  · rw [hsh] at hr; simp at hr
  · obtain ⟨m, h1, h2, h3⟩ := fillRows_spec false hs val hv hsh (min a b) a 0 h.mem (by omega)
    rw [Nat.zero_div, Nat.sub_zero] at h1
    refine ⟨m, ?_, ?_, h3⟩
    · unfold fillDiagonal
      rw [hsh]
      dsimp only
      rw [h1]
    · intro idx hi
      match idx, hi with
      | [r, c], hi =>
        have hr' : r < a := hi.1
        have hc' : c < b := hi.2.1
        have h4 := h2 r c hr' hc'
        have hmod : r < b → r % (b + 1) = r ∧ r / (b + 1) = 0 := fun hlt => ⟨Nat.mod_eq_of_lt (by omega), Nat.div_eq_of_lt (by omega)⟩
        refine ⟨?_, ?_⟩
        · intro i hd
          have e1 : r = i := hd r (by simp)
          have e2 : c = i := hd c (by simp)
          subst e1
          obtain ⟨g1, g2⟩ := hmod (by omega)
          rw [if_pos ⟨Nat.zero_le _, .inr (by omega), by rw [g1]; exact e2⟩, g2, Nat.sub_zero] at h4
          show _ = some (m (h.view.addr [r, c]))
          rw [h4, valAt_cycled hw hc hv]
        · intro hnd
          show m (h.view.addr [r, c]) = h.mem (h.view.addr [r, c])
          rw [h4, if_neg]
          rintro ⟨-, h5, h6⟩
          have h5 : r < max (min a b) (0 + 1) := h5.resolve_left (by simp)
          obtain ⟨g1, -⟩ := hmod (by omega)
          rw [g1] at h6
          apply hnd
          refine ⟨r, ?_⟩
          intro x hx
          simp only [List.mem_cons, List.not_mem_nil, or_false] at hx
          rcases hx with rfl | rfl
          · rfl
          · exact h6
  · obtain ⟨hmin1, hmin2⟩ := foldl_min_le (a :: b :: c :: s) ((a :: b :: c :: s).headD 0)
    obtain ⟨m, h1, h2, h3⟩ := fillAll_spec hs val hv ((a :: b :: c :: s).foldl min ((a :: b :: c :: s).headD 0)) 0 h.mem
      (fun k hk => by rw [hsh] at hk; rw [Nat.zero_add]; exact hmin2 k hk)
    refine ⟨m, ?_, ?_, h3⟩
    · unfold fillDiagonal
      rw [hsh]
      dsimp only
      rw [h1]
    · intro idx hi
      rw [← hsh] at hi
      have h4 := h2 idx hi (by rw [hsh]; simp)
      have hhead : idx ≠ [] := by
        intro he
        rw [he, hsh] at hi
        exact hi
      have hmem : idx.headD 0 ∈ idx := by
        match idx, hhead with
        | x :: l, _ => simp
      refine ⟨?_, ?_⟩
      · intro i hd
        have e1 : idx.headD 0 = i := hd _ hmem
        have hlt : i < (a :: b :: c :: s).foldl min ((a :: b :: c :: s).headD 0) := by
          have hall : ∀ k ∈ a :: b :: c :: s, i < k := by
            intro k hk
            obtain ⟨j, hj, rfl⟩ := List.mem_iff_getElem.1 hk
            have hj' : j < h.view.shape.length := by rw [hsh]; exact hj
            have := inShape_getD hi hj'
            rw [List.getD_eq_getElem _ _ hj', List.getD_eq_getElem _ _ (by rw [hi.length_eq]; exact hj')] at this
            rw [hd _ (List.getElem_mem _)] at this
            have e : h.view.shape[j] = (a :: b :: c :: s)[j] := by
              have : h.view.shape[j]? = (a :: b :: c :: s)[j]? := by rw [hsh]
              rw [List.getElem?_eq_getElem hj', List.getElem?_eq_getElem hj] at this
              exact Option.some.inj this
            rwa [e] at this
          exact lt_foldl_min _ _ _ (hall _ (by simp)) hall
        rw [if_pos ⟨by rw [e1]; exact hd, Nat.zero_le _, by rw [e1]; omega⟩, e1] at h4
        show _ = some (m (h.view.addr idx))
        rw [h4, valAt_cycled hw hc hv]
      · intro hnd
        show m (h.view.addr idx) = h.mem (h.view.addr idx)
        rw [h4, if_neg]
        rintro ⟨h5, -⟩
        exact hnd ⟨_, h5⟩

/-- C73 (partial): with `wrap` the values of a matrix go to every `(columns + 1)`-th element in row-major order. -/
theorem C73_fill_wrap_partial (h val : Held α) (hs : Separate h.view) {nrows ncols : Nat} (hsh : h.view.shape = [nrows, ncols])
    (hw : val.view.WF) (hc : val.view.cFlag = true) (hne : val.nd.toList ≠ []) :
    ∃ m, fillDiagonal h val true = .ok m ∧
      (∀ r c, r < nrows → c < ncols →
        ((r * ncols + c) % (ncols + 1) = 0 → cycled val.nd.toList ((r * ncols + c) / (ncols + 1)) = some ((h.view.denote m).get [r, c])) ∧
        ((r * ncols + c) % (ncols + 1) ≠ 0 → (h.view.denote m).get [r, c] = h.nd.get [r, c])) ∧
      ∀ p, Foreign h.view p → m p = h.mem p := by
  have hv : Rumpy.sizeOf val.view.shape ≠ 0 := by
    intro he
    apply hne
    apply List.length_eq_zero_iff.1
    rw [nd_length, he]
  obtain ⟨m, h1, h2, h3⟩ := fillRows_spec true hs val hv hsh (min nrows ncols) nrows 0 h.mem (by omega)
  rw [Nat.zero_div, Nat.sub_zero] at h1
  refine ⟨m, ?_, ?_, h3⟩
  · unfold fillDiagonal
    rw [hsh]
    dsimp only
    rw [h1]
  · intro r c hr hcl
    have h4 := h2 r c hr hcl
    have hq := Nat.div_add_mod r (ncols + 1)
    have hm : r % (ncols + 1) < ncols + 1 := Nat.mod_lt _ (Nat.succ_pos _)
    generalize r / (ncols + 1) = q at *
    generalize hrm : r % (ncols + 1) = t at *
    have hsum : r * ncols + c + (r + 1) * 1 = (ncols + 1) * r + (c + 1) := by ring
    have hiff : (r * ncols + c) % (ncols + 1) = 0 ↔ c = t := by
      constructor
      · intro h0
        obtain ⟨k, hk⟩ := Nat.dvd_of_mod_eq_zero h0
        -- r * ncols + c = (ncols + 1) * k
        have e : c = (ncols + 1) * k - r * ncols := by omega
        have e2 : (ncols + 1) * r + c = (ncols + 1) * k + r := by nlinarith
        have e3 : ((ncols + 1) * r + c) % (ncols + 1) = ((ncols + 1) * k + r) % (ncols + 1) := by rw [e2]
        rw [Nat.mul_add_mod, Nat.mul_add_mod, Nat.mod_eq_of_lt (by omega : c < ncols + 1), hrm] at e3
        exact e3
      · rintro rfl
        have : r * ncols + c = (ncols + 1) * (q * ncols + c) := by rw [← hq]; ring
        rw [this, Nat.mul_mod_right]
    refine ⟨?_, ?_⟩
    · intro h0
      have hct := hiff.1 h0
      rw [if_pos ⟨Nat.zero_le _, .inl rfl, hct⟩] at h4
      have hdiv : (r * ncols + c) / (ncols + 1) = r - q := by
        have e1 : r * ncols + c = (ncols + 1) * (q * ncols + c) := by rw [← hq, ← hct]; ring
        rw [e1, Nat.mul_div_cancel_left _ (Nat.succ_pos _)]
        have e2 : r = q + (q * ncols + c) := by rw [← hq, ← hct]; ring
        omega
      rw [hdiv, valAt_cycled hw hc hv]
      show _ = some (m (h.view.addr [r, c]))
      rw [h4]
    · intro h0
      show m (h.view.addr [r, c]) = h.mem (h.view.addr [r, c])
      rw [h4, if_neg]
      rintro ⟨-, -, h6⟩
      exact h0 (hiff.2 h6)

/-- C73: arrays with fewer than two axes are refused. -/
theorem C73_fill_rejects (h val : Held α) (wrap : Bool) (hr : h.view.shape.length < 2) : fillDiagonal h val wrap = .error := by
  unfold fillDiagonal
  rcases hsh : h.view.shape with _ | ⟨a, _ | ⟨b, s⟩⟩
  · rfl
  · rfl
  · rw [hsh] at hr; simp at hr

/-- What `fill_diagonal` leaves in the array. -/
def filled (h val : Held α) (wrap : Bool) : Option (List α) :=
  match fillDiagonal h val wrap with | .ok m => some (h.view.denote m).toList | _ => none

example : filled ⟨fun _ => (0 : Int), View.fresh [5, 2] 1⟩ ⟨fun a => a + 7, View.fresh [3] 1⟩ true =
    some [7, 0, 0, 8, 0, 0, 9, 0, 0, 7] := by decide
example : filled ⟨fun _ => (0 : Int), View.fresh [5, 2] 1⟩ ⟨fun a => a + 7, View.fresh [1] 1⟩ false =
    some [7, 0, 0, 7, 0, 0, 0, 0, 0, 0] := by decide
example : filled ⟨fun _ => (0 : Int), View.fresh [2, 2, 2] 1⟩ ⟨fun a => a + 7, View.fresh [2] 1⟩ false =
    some [7, 0, 0, 0, 0, 0, 0, 8] := by decide

/-- C73: strided values are read as if they were contiguous: `fill_diagonal(a, v[::2])` stores `v[0], v[1]`. -/
theorem C73_fill_values_counterexample :
    ∃ v : View, v.WF ∧ (v.denote fun a => a).toList = [0, 2] ∧
      filled ⟨fun _ => (9 : Int), View.fresh [2, 2] 1⟩ ⟨fun a => a, v⟩ false = some [0, 9, 9, 1] := by
  refine ⟨(View.fresh [4] 1).viewWith 0 [2] [2], View.WF.viewWith rfl, ?_, ?_⟩
  · decide
  · decide

/-- C73: three axes of different lengths are not refused, and an empty list of values is a panic. -/
theorem C73_fill_shape_counterexample :
    filled ⟨fun _ => (0 : Int), View.fresh [1, 2, 2] 1⟩ ⟨fun _ => 7, View.fresh [1] 1⟩ false = some [7, 0, 0, 0] ∧
    (match fillDiagonal ⟨fun _ => (0 : Int), View.fresh [2, 2] 1⟩ ⟨fun _ => 7, View.fresh [0] 1⟩ false with
      | .panic => true | _ => false) = true := by decide

/-! ### Index arrays -/

/-- C73 (partial): `unravel_index` takes the indices of a contiguous array in row-major order. Missing: other layouts. -/
theorem C73_unravel_array_partial (h : Held Int) (hw : h.view.WF) (hc : h.view.cFlag = true) : indexList h = h.nd.toList :=
  contiguous_list h hw hc

/-- C73: for `x[::-1]` the indices are read past the end of the array, not backwards. -/
theorem C73_unravel_array_counterexample :
    ∃ v : View, v.WF ∧ (v.denote fun a => a).toList = [1, 0] ∧ indexList ⟨fun a => a, v⟩ = [1, 2] := by
  refine ⟨⟨1, [2], [-1], 1, false, false⟩, ⟨rfl, by simp, by simp⟩, by decide, by decide⟩

/-- C73: `ravel_multi_index` reads a matrix of indices row by row, in any layout. -/
theorem C73_multi_index (h : Held Int) (hw : h.view.WF) {n m : Nat} (hsh : h.view.shape = [n, m]) :
    multiIndex h = some ((List.range n).map fun d => (List.range m).map fun e => h.nd.get [d, e]) := by
  unfold multiIndex
  have hl := hw.len
  rw [hsh] at hl ⊢
  rcases hst : h.view.strides with _ | ⟨s, _ | ⟨t, _ | ⟨u, w⟩⟩⟩
  · rw [hst] at hl; simp at hl
  · rw [hst] at hl; simp at hl
  · dsimp only
    congr 1
    apply List.map_congr_left
    intro d _
    apply List.map_congr_left
    intro e _
    show h.mem _ = h.mem (h.view.offset + byteOffset [d, e] h.view.strides)
    rw [hst]
    simp [byteOffset]
  · rw [hst] at hl; simp at hl

/-- C73: `diag_indices_from` accepts exactly the arrays with at least two axes, all of the same length, and gives that
many copies of `0, 1, …, n - 1`. -/
theorem C73_diag_indices_from (s : List Nat) (r : List (List Nat)) :
    diagIndicesFrom s = some r ↔ 2 ≤ s.length ∧ ∃ n, (∀ d ∈ s, d = n) ∧ r = List.replicate s.length (List.range n) := by
  unfold diagIndicesFrom
  rcases s with _ | ⟨a, s⟩
  · simp
  · by_cases h2 : (a :: s).length < 2
    · rw [if_pos h2]
      constructor
      · intro h; exact absurd h (by simp)
      · rintro ⟨h, -⟩; omega
    · rw [if_neg h2]
      show (if (s.any fun d => decide (d ≠ a)) then none else _) = _ ↔ _
      by_cases h3 : (s.any fun d => decide (d ≠ a)) = true
      · rw [if_pos h3]
        constructor
        · intro h; exact absurd h (by simp)
        · rintro ⟨-, n, h, -⟩
          obtain ⟨d, hd, hne⟩ := List.any_eq_true.1 h3
          have h5 := h d (List.mem_cons_of_mem _ hd)
          have h6 := h a List.mem_cons_self
          simp [h5, h6] at hne
      · rw [if_neg h3]
        have hall : ∀ d ∈ s, d = a := by
          intro d hd
          by_contra hne
          exact h3 (List.any_eq_true.2 ⟨d, hd, by simpa using hne⟩)
        constructor
        · intro h
          refine ⟨by omega, a, ?_, (Option.some.inj h).symm⟩
          intro d hd
          rcases List.mem_cons.1 hd with rfl | hd
          · rfl
          · exact hall d hd
        · rintro ⟨-, n, h, rfl⟩
          have := h a List.mem_cons_self
          subst this
          rfl

theorem mapM_eq_some {f : Nat → Option β} {g : Nat → β} {l : List Nat} (h : ∀ i ∈ l, f i = some (g i)) : l.mapM f = some (l.map g) := by
  induction l with
  | nil => rfl
  | cons x l ih =>
    rw [List.mapM_cons, h x List.mem_cons_self, ih fun i hi => h i (List.mem_cons_of_mem _ hi)]
    rfl

/-- C73 (partial): `mask_indices` gives the rows and columns of the true elements of the mask, in row-major order, when
the mask is a matrix. -/
theorem C73_mask_indices_partial (truthy : α → Bool) (m : Nd α) (hm : m.shape.length = 2) :
    maskIndices truthy m = some ((m.trueAt truthy).map fun i => i.getD 0 0, (m.trueAt truthy).map fun i => i.getD 1 0) := by
  have h := C14_argwhere truthy m (by intro he; rw [he] at hm; simp at hm)
  unfold maskIndices
  dsimp only
  have hsh := h.1
  rw [hm] at hsh
  have hsh' : (argwhere truthy m).shape = [(m.trueAt truthy).length, 2] := hsh
  rw [hsh']
  have hhd : ([(m.trueAt truthy).length, 2] : List Nat).headD 0 = (m.trueAt truthy).length := rfl
  rw [hhd]
  by_cases h0 : (m.trueAt truthy).length = 0
  · rw [if_pos h0]
    have := List.length_eq_zero_iff.1 h0
    rw [this]
    rfl
  · rw [if_neg h0]
    have hread : ∀ i c, i < (m.trueAt truthy).length → c < 2 →
        (argwhere truthy m).data[i * 2 + c]? = some (((m.trueAt truthy).getD i []).getD c 0) := by
      intro i c hi hc
      have hd := h.2
      rw [hm] at hd
      rw [hd]
      have hin : InShape [(m.trueAt truthy).length, 2] [i, c] := ⟨hi, hc, trivial⟩
      have := toList_getElem? (nd := ⟨[(m.trueAt truthy).length, 2],
        fun rj => ((m.trueAt truthy).getD (rj.getD 0 0) []).getD (rj.getD 1 0) 0⟩) (idx := [i, c]) hin
      have hrk : rank [(m.trueAt truthy).length, 2] [i, c] = i * 2 + c := by simp [rank, size]
      rw [hrk] at this
      exact this
    rw [mapM_eq_some (g := fun i => ((m.trueAt truthy).getD i []).getD 0 0) (f := fun i => (argwhere truthy m).data[i * 2]?) (fun i hi => hread i 0 (List.mem_range.1 hi) (by omega)),
      mapM_eq_some (g := fun i => ((m.trueAt truthy).getD i []).getD 1 0) (fun i hi => hread i 1 (List.mem_range.1 hi) (by omega))]
    have hmap : ∀ c : Nat, (List.range (m.trueAt truthy).length).map (fun i => ((m.trueAt truthy).getD i []).getD c 0) =
        (m.trueAt truthy).map fun i => i.getD c 0 := by
      intro c
      apply List.ext_getElem
      · simp
      · intro i h1 h2
        simp only [List.getElem_map, List.getElem_range]
        rw [List.getD_eq_getElem (m.trueAt truthy) _ (by simpa using h2)]
    rw [hmap 0, hmap 1]
    rfl

example : maskIndices (fun x : Nat => x != 0) ⟨[2, 2], fun i => i.getD 0 0 + i.getD 1 0⟩ = some ([0, 1, 1], [1, 0, 1]) := by decide

/-- C73: a mask function that returns a vector makes `mask_indices` read past the end. -/
theorem C73_mask_indices_counterexample : maskIndices (fun x : Nat => x != 0) ⟨[3], fun _ => 1⟩ = none := by decide

end Props
