import Verif.Lemmas.Grid
import Verif.Model.LogSpace
import Mathlib.Tactic.LinearCombination
import Mathlib.Tactic.FieldSimp
/-!
# Property C53: ranges and grids

Numbers are exact (rationals or reals): rounding of the float64 arithmetic is outside the model.
-/

namespace Props
open Rumpy Spec

/-! ### arange -/

/-- C53: `arange(start, stop, step)` with a non-zero step holds `start + i*step` for exactly the `i` for which that
value has not reached `stop`. -/
theorem C53_arange (store : Rat → α) (start stop step : Rat) (hstep : step ≠ 0) :
    ∃ n, arange store start stop step = .ok ((List.range n).map fun i : Nat => store (start + i * step)) ∧
      ∀ i : Nat, i < n ↔ (0 < step ∧ start + i * step < stop) ∨ (step < 0 ∧ stop < start + i * step) := by
  refine ⟨(Int.ceil ((stop - start) / step)).toNat, ?_, fun i => ?_⟩
  · unfold arange
    rw [if_neg hstep]
  · rw [Int.lt_toNat, Int.lt_ceil]
    rcases lt_or_gt_of_ne hstep with h | h
    · rw [lt_div_iff_of_neg h]
      push_cast
      constructor
      · intro h1; exact .inr ⟨h, by linarith⟩
      · rintro (⟨h1, -⟩ | ⟨-, h1⟩)
        · exact absurd h1 (by linarith)
        · linarith
    · rw [lt_div_iff₀ h]
      push_cast
      constructor
      · intro h1; exact .inl ⟨h, by linarith⟩
      · rintro (⟨-, h1⟩ | ⟨h1, -⟩)
        · linarith
        · exact absurd h1 (by linarith)

/-- C53: the length of `arange` is `ceil((stop - start) / step)`, or zero when that is negative. -/
theorem C53_arange_length (store : Rat → α) (start stop step : Rat) (hstep : step ≠ 0) :
    ∃ l, arange store start stop step = .ok l ∧ l.length = (⌈(stop - start) / step⌉).toNat := by
  unfold arange
  rw [if_neg hstep]
  exact ⟨_, rfl, by simp⟩

example : arange id 1 2 (1/4) = .ok [1, 5/4, 3/2, 7/4] := by decide +kernel
example : arange id 3 0 (-2) = .ok [3, 1] ∧ arange id 0 3 (-1) = .ok [] := by decide +kernel

/-- C53: a zero step is not reported as an error: the code panics when `stop > start` and returns an empty array
otherwise (NumPy raises for every zero step). -/
theorem C53_arange_zero_step_counterexample (store : Rat → α) (start stop : Rat) :
    arange store start stop 0 = if stop > start then .panic else .ok [] := by
  unfold arange
  rw [if_pos rfl]

/-- C53, proved part: without a dtype, `arange` of integers gives the integers `start + i*step` that lie before
`stop`.  Missing: fractional arguments (`C53_arange_default_dtype_counterexample`). -/
theorem C53_arange_int_partial (start stop step : Int) (hstep : step ≠ 0) :
    ∃ n, pyArange start (some stop) (some step) = .ok ((List.range n).map fun i : Nat => start + i * step) ∧
      ∀ i : Nat, i < n ↔ (0 < step ∧ start + i * step < stop) ∨ (step < 0 ∧ stop < start + i * step) := by
  obtain ⟨n, h1, h2⟩ := C53_arange (fun x : Rat => if 0 ≤ x then ⌊x⌋ else ⌈x⌉) start stop step (by exact_mod_cast hstep)
  refine ⟨n, ?_, fun i => ?_⟩
  · unfold pyArange
    dsimp only
    rw [Option.getD_some, h1]
    congr 1
    apply List.map_congr_left
    intro i _
    have e : ((start : Rat) + i * step) = ((start + i * step : Int) : Rat) := by push_cast; ring
    simp only [e, Int.floor_intCast, Int.ceil_intCast, ite_self]
  · rw [h2]
    exact_mod_cast Iff.rfl

/-- C53: `arange(stop)` counts `0, 1, .., stop-1`. -/
theorem C53_arange_one_argument (stop : Nat) :
    pyArange stop none none = .ok ((List.range stop).map fun i : Nat => (i : Int)) := by
  unfold pyArange
  dsimp only
  rw [Option.getD_none]
  unfold arange
  rw [if_neg (by norm_num)]
  simp only [sub_zero, div_one, Int.ceil_natCast, Int.toNat_natCast, zero_add, mul_one]
  congr 1
  apply List.map_congr_left
  intro i _
  simp

/-- C53: `arange(0, 1, 0.25)` without a dtype is int64, so its four entries are all zero (NumPy gives floats). -/
theorem C53_arange_default_dtype_counterexample :
    pyArange 0 (some 1) (some (1/4)) = .ok [0, 0, 0, 0] := by decide +kernel

example : pyArange 5 none none = .ok [0, 1, 2, 3, 4] ∧ pyArange 10 (some 0) (some (-3)) = .ok [10, 7, 4, 1] := by
  decide +kernel

/-! ### linspace, logspace, geomspace -/

/-- C53: `linspace(start, stop, num)` has `num` entries; entry `i` is `start + i*(stop-start)/(num-1)`, so the
first is `start`, the last is `stop` and the gaps are equal. -/
theorem C53_linspace (start stop : Rat) (num : Nat) :
    (linspace id start stop num).length = num ∧
    (0 < num → (linspace id start stop num)[0]? = some start) ∧
    (1 < num → (linspace id start stop num)[num - 1]? = some stop) ∧
    (∀ i, i + 1 < num → ∃ x y, (linspace id start stop num)[i]? = some x ∧ (linspace id start stop num)[i + 1]? = some y ∧
      (y - x) * ((num : Rat) - 1) = stop - start) := by
  have hget : ∀ i, i < num → (linspace id start stop num)[i]? =
      some (start + i * (if num > 1 then (stop - start) / (num - 1 : Nat) else 0)) := by
    intro i hi
    simp [linspace, hi]
  refine ⟨by simp [linspace], fun h => ?_, fun h => ?_, fun i hi => ?_⟩
  · rw [hget 0 h]; simp
  · rw [hget _ (by omega), if_pos h]
    have : ((num - 1 : Nat) : Rat) ≠ 0 := by
      have : num - 1 ≠ 0 := by omega
      exact_mod_cast this
    congr 1
    field_simp
    ring
  · refine ⟨_, _, hget i (by omega), hget (i + 1) hi, ?_⟩
    rw [if_pos (by omega)]
    have e : ((num - 1 : Nat) : Rat) = (num : Rat) - 1 := by
      rw [Nat.cast_sub (by omega)]; simp
    have h0 : ((num : Rat) - 1) ≠ 0 := by
      rw [← e]
      have : num - 1 ≠ 0 := by omega
      exact_mod_cast this
    rw [e]
    push_cast
    field_simp
    ring

/-- C53: storing into a dtype happens after the exact value is computed. -/
theorem C53_linspace_store (store : Rat → α) (start stop : Rat) (num : Nat) :
    linspace store start stop num = (linspace id start stop num).map store := by
  simp [linspace]

example : linspace id 1 2 5 = [1, 5/4, 3/2, 7/4, 2] ∧ linspace id 3 9 1 = [3] ∧ linspace id 3 9 0 = [] := by
  decide +kernel

/-- C53: `logspace` is `base` to the power of the evenly spaced exponents; it starts at `base^start` and ends at
`base^stop`. -/
theorem C53_logspace (start stop base : ℝ) (num : Nat) (hb : 0 < base) :
    (logspace id start stop num base).length = num ∧
    (0 < num → (logspace id start stop num base)[0]? = some (base ^ start)) ∧
    (1 < num → (logspace id start stop num base)[num - 1]? = some (base ^ stop)) ∧
    (∀ i, i + 1 < num → ∃ x y, (logspace id start stop num base)[i]? = some x ∧
      (logspace id start stop num base)[i + 1]? = some y ∧ y / x = base ^ ((stop - start) / ((num : ℝ) - 1))) := by
  have hget : ∀ i, i < num → (logspace id start stop num base)[i]? =
      some (base ^ (start + i * (if num > 1 then (stop - start) / ((num - 1 : Nat) : ℝ) else 0))) := by
    intro i hi
    simp [logspace, hi]
  refine ⟨by simp [logspace], fun h => ?_, fun h => ?_, fun i hi => ?_⟩
  · rw [hget 0 h]; simp
  · rw [hget _ (by omega), if_pos h]
    have : ((num - 1 : Nat) : ℝ) ≠ 0 := by
      have : num - 1 ≠ 0 := by omega
      exact_mod_cast this
    congr 2
    field_simp
    ring
  · refine ⟨_, _, hget i (by omega), hget (i + 1) hi, ?_⟩
    rw [if_pos (by omega), ← Real.rpow_sub hb]
    have e : ((num - 1 : Nat) : ℝ) = (num : ℝ) - 1 := by
      rw [Nat.cast_sub (by omega)]; simp
    rw [e]
    congr 1
    push_cast
    ring

/-- C53: `geomspace` refuses end points of different sign or zero. -/
theorem C53_geomspace_succeeds_iff (store : ℝ → α) (start stop : ℝ) (num : Nat) :
    (geomspace store start stop num).isSome ↔ 0 < start * stop := by
  unfold geomspace
  split
  · rename_i h; simp [h]
  · rename_i h; simpa using h

/-- C53: `geomspace` starts at `start`, ends at `stop`, and consecutive entries have one common ratio. -/
theorem C53_geomspace (start stop : ℝ) (num : Nat) (h : 0 < start * stop) :
    ∃ l, geomspace id start stop num = some l ∧ l.length = num ∧
      (0 < num → l[0]? = some start) ∧ (1 < num → l[num - 1]? = some stop) ∧
      ∃ q : ℝ, 0 < q ∧ (1 < num → q ^ (num - 1) = stop / start) ∧
        ∀ i, i + 1 < num → ∃ x, l[i]? = some x ∧ l[i + 1]? = some (x * q) := by
  set lst := Real.log |start| with hls
  set lsp := Real.log |stop| with hlp
  set sg : ℝ := if start < 0 then -1 else 1 with hsg
  set step : ℝ := if num > 1 then (lsp - lst) / ((num - 1 : Nat) : ℝ) else 0 with hstep
  have hs0 : start ≠ 0 := by rintro rfl; simp at h
  have hp0 : stop ≠ 0 := by rintro rfl; simp at h
  have e1 : sg * Real.exp lst = start := by
    rw [hls, Real.exp_log (abs_pos.2 hs0), hsg]
    split
    · rename_i hn; rw [abs_of_neg hn]; ring
    · rename_i hn; rw [abs_of_nonneg (not_lt.1 hn)]; ring
  have e2 : sg * Real.exp lsp = stop := by
    rw [hlp, Real.exp_log (abs_pos.2 hp0), hsg]
    split
    · rename_i hn
      have : stop < 0 := by nlinarith [h, hn]
      rw [abs_of_neg this]; ring
    · rename_i hn
      have hpos : 0 < start := lt_of_le_of_ne (not_lt.1 hn) (Ne.symm hs0)
      have : 0 < stop := by
        by_contra hc
        nlinarith
      rw [abs_of_pos this]; ring
  have hl : geomspace id start stop num
      = some ((List.range num).map fun i : Nat => sg * Real.exp (lst + i * step)) := by
    unfold geomspace
    rw [if_neg (not_le.2 h)]
    rfl
  have hn1 : 1 < num → ((num - 1 : Nat) : ℝ) ≠ 0 := by
    intro hn
    have : num - 1 ≠ 0 := by omega
    exact_mod_cast this
  have hlast : 1 < num → ((num - 1 : Nat) : ℝ) * step = lsp - lst := by
    intro hn
    rw [hstep, if_pos hn]
    have := hn1 hn
    field_simp
  refine ⟨_, hl, by simp, fun hn => ?_, fun hn => ?_, Real.exp step, Real.exp_pos _, fun hn => ?_, fun i hi => ?_⟩
  · simp [hn, e1]
  · rw [List.getElem?_map, List.getElem?_range (by omega), Option.map_some, hlast hn, ← e2]
    congr 3
    ring
  · rw [← Real.exp_nat_mul, hlast hn, Real.exp_sub, ← e2, ← e1]
    have hsg0 : sg ≠ 0 := by rw [hsg]; split <;> norm_num
    have := Real.exp_pos lst
    field_simp
  · refine ⟨sg * Real.exp (lst + i * step), ?_, ?_⟩
    · rw [List.getElem?_map, List.getElem?_range (by omega), Option.map_some]
    · rw [List.getElem?_map, List.getElem?_range hi, Option.map_some, mul_assoc, ← Real.exp_add]
      congr 3
      push_cast; ring

example : (0 : ℝ) < (-1) * (-8) := by norm_num

/-! ### indices and fromfunction -/

/-- C53: `indices(dims)` has shape `(ndim,) + dims`, and its entry `[d, i0, i1, ..]` is `i_d`; this holds for the fast
paths and for the other dtypes. -/
theorem C53_indices (fast : Bool) (store : Nat → α) (dims : List Nat) (zero : α) (hd : dims ≠ []) :
    (indicesArr fast store dims zero).shape = dims.length :: dims ∧
    ∀ d idx, d < dims.length → InShape dims idx →
      (indicesArr fast store dims zero).at? (d :: idx) = some (store ((Nd.grid dims d).get idx)) := by
  have h := indicesArr_is fast store dims zero
  rw [if_neg hd] at h
  exact ⟨h.1, fun d idx hlt hi => h.at? (idx := d :: idx) ⟨hlt, hi⟩⟩

/-- C53: `indices(())` is empty. -/
theorem C53_indices_nil (fast : Bool) (store : Nat → α) (zero : α) : indicesArr fast store [] zero = ⟨[0], []⟩ := rfl

example : indicesArr true id [2, 3] 9 = ⟨[2, 2, 3], [0, 0, 0, 1, 1, 1, 0, 1, 2, 0, 1, 2]⟩ ∧
    indicesArr false id [2, 3] 9 = ⟨[2, 2, 3], [0, 0, 0, 1, 1, 1, 0, 1, 2, 0, 1, 2]⟩ := by decide

/-- C53: the index arrays given to the callback of `fromfunction` are the coordinates of the grid. -/
theorem C53_fromfunction (shape : List Nat) (dim : Nat) : (functionIndex shape dim).Is (Nd.grid shape dim) := by
  refine ⟨rfl, ?_⟩
  show (odometerAll shape).map _ = (indices shape).map _
  rw [odometerAll_eq]
  rfl

example : functionIndex [2, 3] 1 = ⟨[2, 3], [0, 1, 2, 0, 1, 2]⟩ := by decide

/-! ### meshgrid -/

theorem swap_getD (l : List Nat) (d : Nat) (hl : 2 ≤ l.length) :
    (swapFirstTwo l).getD (if d = 0 then 1 else if d = 1 then 0 else d) 0 = l.getD d 0 := by
  match l, hl with
  | a :: b :: r, _ =>
    match d with
    | 0 => rfl
    | 1 => rfl
    | d + 2 => rfl

theorem swap_getD' (l : List Nat) (d : Nat) (hl : 2 ≤ l.length) :
    (swapFirstTwo l).getD d 0 = l.getD (if d = 0 then 1 else if d = 1 then 0 else d) 0 := by
  match l, hl with
  | a :: b :: r, _ =>
    match d with
    | 0 => rfl
    | 1 => rfl
    | d + 2 => rfl

theorem swap_short (l : List α) (hl : l.length < 2) : swapFirstTwo l = l := by
  match l, hl with
  | [], _ => rfl
  | [_], _ => rfl

theorem swap_length (l : List α) : (swapFirstTwo l).length = l.length := by
  match l with
  | [] => rfl
  | [_] => rfl
  | _ :: _ :: _ => rfl

/-- C53, proved part: for contiguous vectors `x_0, x_1, ..`, array `d` of `meshgrid` with `ij` indexing has
`x_d[i_d]` at position `[i_0, i_1, ..]`; with `xy` indexing the first two axes are exchanged.  Missing: vectors that
are not contiguous, which are refused (`C53_meshgrid_succeeds_iff`, `C53_meshgrid_counterexample`). -/
theorem C53_meshgrid_partial (arrays : List (Bool × Held α)) (xy : Bool) (zero : α)
    (h : ∀ a ∈ arrays, a.2.view.WF ∧ a.2.view.shape.length = 1 ∧ a.2.view.cFlag = true) :
    ∃ rs, meshgrid arrays xy zero = some rs ∧ rs.length = arrays.length ∧
      ∀ (d : Nat) (a : Bool × Held α) (r : Arr α), arrays[d]? = some a → rs[d]? = some r →
        r.Is { shape := (if xy then swapFirstTwo else id) (arrays.map fun a => a.2.nd.shape.headD 0)
               get := fun idx => a.2.nd.get [((if xy then swapFirstTwo else id) idx).getD d 0] } := by
  have hshape : ∀ a ∈ arrays, a.2.view.shape = [a.2.nd.shape.headD 0] := by
    intro a ha
    have hl := (h a ha).2.1
    show a.2.view.shape = [a.2.view.shape.headD 0]
    match a.2.view.shape, hl with
    | [n], _ => rfl
  have hsizes : (arrays.map fun a => Rumpy.sizeOf a.2.view.shape) = arrays.map fun a => a.2.nd.shape.headD 0 := by
    apply List.map_congr_left
    intro a ha
    conv_lhs => rw [sizeOf_eq, hshape a ha]
    simp [size]
  set sizes := arrays.map fun a => a.2.nd.shape.headD 0 with hsz
  have hsl : sizes.length = arrays.length := by simp [hsz]
  set f : List Nat → List Nat := if xy then swapFirstTwo else id with hf
  -- the shape the code computes
  have hout : (if (xy && decide (arrays.length ≥ 2)) = true then (sizes.set 0 (sizes.getD 1 0)).set 1 (sizes.getD 0 0) else sizes) = f sizes := by
    cases xy
    · simp [hf]
    · simp only [Bool.true_and, decide_eq_true_eq, hf, if_true]
      split
      · rename_i h2
        rw [← hsl] at h2
        match hm : sizes, h2 with
        | a :: b :: r, _ => rfl
      · rename_i h2
        rw [swap_short _ (by omega)]
  set vary : Nat → Nat := fun d => if (xy && decide (arrays.length ≥ 2)) = true then (if d = 0 then 1 else if d = 1 then 0 else d) else d with hv
  have hvary : ∀ d (l : List Nat), l.length = arrays.length → (f l).getD (vary d) 0 = l.getD d 0 := by
    intro d l hl
    simp only [hv, hf]
    cases xy
    · simp
    · simp only [Bool.true_and, decide_eq_true_eq, if_true]
      split
      · rw [swap_getD _ _ (by omega)]
      · rw [swap_short _ (by omega)]
  have hvary' : ∀ d (l : List Nat), l.length = arrays.length → (f l).getD d 0 = l.getD (vary d) 0 := by
    intro d l hl
    simp only [hv, hf]
    cases xy
    · simp
    · simp only [Bool.true_and, decide_eq_true_eq, if_true]
      split
      · rw [swap_getD' _ _ (by omega)]
      · rw [swap_short _ (by omega)]
  have hvl : ∀ d, d < arrays.length → vary d < arrays.length := by
    intro d hd
    simp only [hv]
    split
    · rename_i h2
      simp only [Bool.and_eq_true, decide_eq_true_eq] at h2
      split
      · omega
      · split <;> omega
    · exact hd
  have hfl : (f sizes).length = arrays.length := by
    rw [← hsl, hf]
    cases xy
    · rfl
    · exact swap_length _
  have hone : ∀ (a : Bool × Held α) (d : Nat), arrays[d]? = some a →
      ∃ r b, a.2.view.reshape ((List.replicate arrays.length 1).set (vary d) (Rumpy.sizeOf a.2.view.shape)) = some r ∧
        r.broadcastTo (f sizes) = some b ∧
        (copyArr a.1 a.2.mem b zero).Is ⟨f sizes, fun idx => a.2.nd.get [(f idx).getD d 0]⟩ := by
    intro a d had
    obtain ⟨hd, rfl⟩ := List.getElem?_eq_some_iff.1 had
    have hm : arrays[d] ∈ arrays := List.getElem_mem hd
    obtain ⟨hw, -, hc⟩ := h _ hm
    have hsa : Rumpy.sizeOf arrays[d].2.view.shape = arrays[d].2.nd.shape.headD 0 := by
      conv_lhs => rw [sizeOf_eq, hshape _ hm]
      simp [size]
    have hn : (f sizes).getD (vary d) 0 = arrays[d].2.nd.shape.headD 0 := by
      rw [hvary d sizes hsl, hsz, List.getD_eq_getElem _ _ (by simpa using hd), List.getElem_map]
    obtain ⟨r, b, h1, h2, h3⟩ := mesh_one arrays[d].1 arrays[d].2 zero hw (hshape _ hm) hc (f sizes) (vary d)
      (by rw [hfl]; exact hvl d hd) hn
    refine ⟨r, b, ?_, h2, h3.congr ⟨rfl, fun idx hi => ?_⟩⟩
    · rw [hsa, ← hfl]; exact h1
    · have hl : idx.length = arrays.length := by rw [← hfl]; exact InShape.length_eq hi
      show _ = arrays[d].2.nd.get [(f idx).getD d 0]
      rw [hvary' d idx hl]
  have hany : (arrays.any fun a => decide (a.2.view.shape.length ≠ 1)) = false := by
    rw [List.any_eq_false]
    intro a ha
    simp [(h a ha).2.1]
  have hmesh : meshgrid arrays xy zero = arrays.zipIdx.mapM fun ai => do
      let reshaped ← ai.1.2.view.reshape ((List.replicate arrays.length 1).set (vary ai.2) (Rumpy.sizeOf ai.1.2.view.shape))
      let b ← reshaped.broadcastTo (f sizes)
      return copyArr ai.1.1 ai.1.2.mem b zero := by
    unfold meshgrid
    rw [hany, if_neg (by simp)]
    dsimp only
    rw [hsizes, hout]
  have hsome : (meshgrid arrays xy zero).isSome := by
    rw [hmesh, mapM_isSome_iff]
    rintro ⟨a, d⟩ hm
    obtain ⟨r, b, h1, h2, -⟩ := hone a d (List.mk_mem_zipIdx_iff_getElem?.1 hm)
    simp [h1, h2]
  obtain ⟨rs, hrs⟩ := Option.isSome_iff_exists.1 hsome
  have hfa := hrs
  rw [hmesh, mapM_some_iff] at hfa
  refine ⟨rs, hrs, by simpa using hfa.length_eq.symm, fun d a r had hrd => ?_⟩
  obtain ⟨r', b, h1, h2, h3⟩ := hone a d had
  have hz : arrays.zipIdx[d]? = some (a, d) := by simp [had]
  obtain ⟨hd1, e1⟩ := List.getElem?_eq_some_iff.1 hz
  obtain ⟨hd2, e2⟩ := List.getElem?_eq_some_iff.1 hrd
  have := hfa.get hd1 hd2
  rw [List.get_eq_getElem, List.get_eq_getElem, e1, e2] at this
  simp only [h1, h2, Option.bind_eq_bind, Option.bind_some, Option.pure_def, Option.some.injEq] at this
  rw [← this]
  exact h3

/-- C53: `meshgrid` of vectors succeeds exactly when all are contiguous.  (For a vector the two contiguity flags
agree, `hflag`.) -/
theorem C53_meshgrid_succeeds_iff (arrays : List (Bool × Held α)) (xy : Bool) (zero : α)
    (h : ∀ a ∈ arrays, a.2.view.WF ∧ a.2.view.shape.length = 1) (hflag : ∀ a ∈ arrays, a.2.view.fFlag = a.2.view.cFlag) :
    (meshgrid arrays xy zero).isSome ↔ ∀ a ∈ arrays, a.2.view.cFlag = true := by
  constructor
  · intro hs a ha
    by_contra hc
    have hc' : a.2.view.cFlag = false := by simpa using hc
    have hany : (arrays.any fun a => decide (a.2.view.shape.length ≠ 1)) = false := by
      rw [List.any_eq_false]
      intro a ha
      simp [(h a ha).2]
    unfold meshgrid at hs
    rw [hany, if_neg (by simp)] at hs
    dsimp only at hs
    rw [mapM_isSome_iff] at hs
    obtain ⟨d, hd, rfl⟩ := List.mem_iff_getElem.1 ha
    have hm : (arrays[d], d) ∈ arrays.zipIdx := List.mk_mem_zipIdx_iff_getElem?.2 (List.getElem?_eq_getElem hd)
    have hs' := hs _ hm
    have hf' := hflag _ ha
    rw [hc'] at hf'
    have hre : ∀ s, arrays[d].2.view.reshape s = none := by
      intro s
      unfold View.reshape
      rw [hc', hf']
      split
      · rfl
      · simp
    simp only [hre, Option.bind_eq_bind, Option.bind_none, Option.isSome_none, Bool.false_eq_true] at hs'
  · intro hc
    obtain ⟨rs, hrs, -⟩ := C53_meshgrid_partial arrays xy zero fun a ha => ⟨(h a ha).1, (h a ha).2, hc a ha⟩
    simp [hrs]

/-- C53: `meshgrid` refuses `x[::2]`. -/
theorem C53_meshgrid_counterexample :
    ∃ v : View, v.WF ∧ v.shape = [2] ∧ meshgrid [(true, ⟨fun a => a, v⟩)] true 0 = none := by
  refine ⟨(View.fresh [4] 8).viewWith 0 [2] [16], View.WF.viewWith rfl, rfl, ?_⟩
  decide

example : meshgrid [(true, ⟨fun a => a / 8, View.fresh [3] 8⟩), (true, ⟨fun a => 10 + a / 8, View.fresh [2] 8⟩)] true 0
    = some [⟨[2, 3], [0, 1, 2, 0, 1, 2]⟩, ⟨[2, 3], [10, 10, 10, 11, 11, 11]⟩] := by decide

end Props
