import Verif.Props.Matmul
import Mathlib.LinearAlgebra.CrossProduct
/-!
# C42 (continued): inner, outer, dot, vdot, kron, matrix_power, multi_dot, tensordot, cross
-/

namespace Props
open Spec Rumpy

/-! ### inner -/

theorem inner_resolves {L1 L2 loop : List Nat} (n : Nat) (h : IsBroadcastAll [L1, L2] loop) :
    Resolves innerSig [L1 ++ [n], L2 ++ [n]] (fun _ => n) [L1, L2] loop := ⟨rfl, by simp [innerSig], h⟩

theorem addr_one (v : View) (k : Nat) : v.addr [k] = v.offset + (k : Int) * v.strides.getD 0 0 := by
  unfold View.addr
  cases h : v.strides with
  | nil => simp [byteOffset]
  | cons s0 t => simp [byteOffset]

/-- What `inner` does for operands whose leading axes broadcast. -/
theorem inner_call [NonUnitalNonAssocSemiring α] (put : α → β) {a b : Held α} {item : Nat} (hitem : 0 < item) (zero : β)
    (ha : a.view.WF) (hb : b.view.WF) {L1 L2 loop : List Nat} {n : Nat}
    (sa : a.view.shape = L1 ++ [n]) (sb : b.view.shape = L2 ++ [n]) (hbc : IsBroadcastAll [L1, L2] loop)
    (ala : LoopAligned a.view L1 loop) (alb : LoopAligned b.view L2 loop) :
    ∃ arr, inner put a b item zero = some arr ∧
      arr.Is ⟨loop, fun idx => put (∑ k ∈ Finset.range n,
        (a.nd.coreAt loop [n] idx).get [k] * (b.nd.coreAt loop [n] idx).get [k])⟩ := by
  have hr := inner_resolves n hbc
  rw [← sa, ← sb] at hr
  have hins : innerSig.inputs.map (fun ns => ns.map (fun _ : List Char => n)) = [[n], [n]] := by simp [innerSig]
  have := C40_call_partial innerSig [] rfl (innerKernel put) [a, b] item hitem zero (fun _ => n) [L1, L2] loop hr
    (by simp [ha, hb]) (by simp [innerSig]) (by
      intro i h l h1 h2
      match i, h1, h2 with
      | 0, h1, h2 => cases h1; cases h2; exact ala
      | 1, h1, h2 => cases h1; cases h2; exact alb
      | i + 2, h1, h2 => simp at h1)
    (fun xs _ => match xs with
      | [x, y] => put (∑ k ∈ Finset.range n, x.get [k] * y.get [k])
      | _ => zero)
    (by
      intro xs ys hxy hsh c hc
      rw [hins] at hsh
      cases hxy with
      | nil => rfl
      | cons hx hxy =>
        cases hxy with
        | nil => rfl
        | cons hy hxy =>
          cases hxy with
          | cons => rfl
          | nil =>
            simp only [List.map_cons, List.map_nil, List.cons.injEq, and_true] at hsh
            refine congrArg put (Finset.sum_congr rfl fun k hk => ?_)
            have hk := Finset.mem_range.1 hk
            rw [hx.2 [k] (by rw [hsh.1]; simp [InShape, hk]), hy.2 [k] (by rw [hsh.2]; simp [InShape, hk])])
    (by
      intro cores w hsh _ _
      rw [hins] at hsh
      have hl := congrArg List.length hsh
      simp only [List.length_map, List.length_cons, List.length_nil] at hl
      obtain ⟨x, y, rfl⟩ := List.length_eq_two.1 hl
      simp only [List.map_cons, List.map_nil, List.cons.injEq, and_true] at hsh
      simp only [innerKernel, hsh.1, List.getD_cons_zero, List.map_nil, indices, List.map_cons]
      rw [foldl_add_range (fun k => x.mem (x.view.addr [k]) * y.mem (y.view.addr [k]))]
      simp [View.addr, byteOffset, Held.nd, View.denote])
  obtain ⟨arr, h1, h2⟩ := this
  refine ⟨arr, h1, h2.congr ⟨by simp, fun idx hi => ?_⟩⟩
  have hi : InShape (loop ++ []) idx := hi
  rw [List.append_nil] at hi
  simp only [innerSig, List.zipWith_cons_cons, List.zipWith_nil_left, List.map_cons, List.map_nil, ← hi.length_eq, List.take_length]

/-- C42 (partial): `inner` of arrays one of which is a vector is the sum over the last axes.  Missing: when
both have more axes the shape is wrong (`C42_inner_shape_counterexample`); the result is stored as a
float64 whatever its dtype (`C42_inner_dtype_counterexample`, `C42_inner_in_bounds_iff`). -/
theorem C42_inner_partial [NonUnitalNonAssocSemiring α] (put : α → β) (a b : Held α) (item : Nat) (hitem : 0 < item) (zero : β)
    (ha : a.view.WF) (hb : b.view.WF) (L1 L2 : List Nat) (n : Nat)
    (sa : a.view.shape = L1 ++ [n]) (sb : b.view.shape = L2 ++ [n]) (h1 : L1 = [] ∨ L2 = [])
    (pa : ∀ s ∈ a.view.strides.take L1.length, 0 ≤ s) (pb : ∀ s ∈ b.view.strides.take L2.length, 0 ≤ s) :
    ∃ arr, inner put a b item zero = some arr ∧
      arr.Is ⟨(a.nd.inner b.nd).shape, fun idx => put ((a.nd.inner b.nd).get idx)⟩ := by
  have sa' : a.nd.shape = L1 ++ [n] := sa
  have sb' : b.nd.shape = L2 ++ [n] := sb
  rcases h1 with rfl | rfl
  · obtain ⟨arr, e1, e2⟩ := inner_call put hitem zero ha hb sa sb (isBroadcastAll_right L2) ⟨Or.inl rfl, by simp⟩ ⟨Or.inr rfl, pb⟩
    refine ⟨arr, e1, e2.congr ⟨by simp [Nd.inner, sa', sb'], fun idx hi => ?_⟩⟩
    have hi : InShape L2 idx := hi
    simp only [Nd.inner, sa', List.nil_append, List.getLastD_cons, List.getLastD_nil, List.length_cons, List.length_nil,
      Nat.sub_self, List.take_zero, List.drop_zero]
    refine congrArg put (Finset.sum_congr rfl fun k hk => ?_)
    have hk := Finset.mem_range.1 hk
    rw [coreAt_none (by rw [sa']; rfl) hi (by simp [InShape, hk]), coreAt_self sb' hi (by simp [InShape, hk])]
  · obtain ⟨arr, e1, e2⟩ := inner_call put hitem zero ha hb sa sb (isBroadcastAll_left L1) ⟨Or.inr rfl, pa⟩ ⟨Or.inl rfl, by simp⟩
    refine ⟨arr, e1, e2.congr ⟨by simp [Nd.inner, sa', sb'], fun idx hi => ?_⟩⟩
    have hi : InShape L1 idx := hi
    simp only [Nd.inner, sa', List.length_append, List.length_cons, List.length_nil, Nat.zero_add, Nat.add_sub_cancel,
      List.getLastD_concat]
    rw [← hi.length_eq, List.take_length, List.drop_length]
    refine congrArg put (Finset.sum_congr rfl fun k hk => ?_)
    have hk := Finset.mem_range.1 hk
    rw [coreAt_self sa' hi (by simp [InShape, hk]), coreAt_none (by rw [sb']; rfl) hi (by simp [InShape, hk])]
    rfl

example : (fun (a b : Held Int) => a.view.WF ∧ b.view.WF ∧ a.view.shape = [] ++ [3] ∧ b.view.shape = [2] ++ [3] ∧
    (∀ s ∈ b.view.strides.take 1, 0 ≤ s)) (Held.of ⟨[3], [1, 2, 3]⟩ 8 0) (Held.of ⟨[2, 3], [1, 2, 3, 4, 5, 6]⟩ 8 0) :=
  ⟨View.WF.fresh _ _, View.WF.fresh _ _, rfl, rfl, by decide⟩

/-- What `gufunc_call` stores for `inner`. -/
theorem inner_raw [Zero α] [Add α] [Mul α] {put : α → β} {a b : Held α} {item : Nat} {zero : β}
    {L1 L2 loop : List Nat} {n : Nat} (sa : a.view.shape = L1 ++ [n]) (sb : b.view.shape = L2 ++ [n])
    (hbc : IsBroadcastAll [L1, L2] loop) :
    inner put a b item zero = some ⟨loop,
      writes (((odometerAll loop).flatMap fun l => innerKernel put (inputCores [a, b] [L1.length, L2.length] l)
        ((View.fresh loop item).gufuncSubarray l loop.length)).map fun s => ((s.1 / (item : Int)).toNat, s.2))
        (List.replicate (Rumpy.sizeOf loop) zero)⟩ := by
  have hr := inner_resolves n hbc
  rw [← sa, ← sb] at hr
  have e := resolveDims_eq hr
  unfold inner gufuncCall
  simp only [List.map_cons, List.map_nil]
  rw [e]
  simp only [Option.bind_eq_bind, Option.bind_some, GuDims.outputShape, innerSig, List.map_cons, List.map_nil, List.getD_cons_zero,
    List.append_nil]

theorem isBroadcastAll_same (L : List Nat) : IsBroadcastAll [L, L] L := by
  rw [← broadcastMulti_iff]
  simp only [broadcastMultiShapes, List.foldlM_cons, List.foldlM_nil]
  rw [(broadcastShapes_iff (a := L) (b := L) (r := L)).2 ⟨by simp, fun k hk => Or.inl ⟨rfl, rfl⟩⟩]
  rfl

/-- C42, negated: `inner` of two matrices of shape `(2, 2)` has shape `(2, 2)` in NumPy and `(2,)` here. -/
theorem C42_inner_shape_counterexample :
    ∃ r, inner id (Held.of ⟨[2, 2], [1, 2, 3, 4]⟩ 8 0 : Held Int) (Held.of ⟨[2, 2], [1, 2, 3, 4]⟩ 8 0) 8 0 = some r ∧
      r.shape = [2] ∧ r.data = [5, 25] ∧
      ((Held.of ⟨[2, 2], [1, 2, 3, 4]⟩ 8 0 : Held Int).nd.inner (Held.of ⟨[2, 2], [1, 2, 3, 4]⟩ 8 0 : Held Int).nd).toList = [5, 11, 11, 25] := by
  rw [inner_raw (L1 := [2]) (L2 := [2]) (loop := [2]) (n := 2) rfl rfl (isBroadcastAll_same [2])]
  exact ⟨_, rfl, rfl, by decide +kernel, by decide +kernel⟩

theorem ieeeValue_one_ne : ieeeValue 1#64 ≠ 1 := by
  simp only [ieeeValue]
  simp
  exact (one_lt_pow₀ (by norm_num : (1 : ℚ) < 2) (by norm_num)).ne'

/-- C42, negated: `inner` of int64 arrays is not an int64: the float64 that is stored, read as int64,
is another number.  `put` is any encoding that stores 1 as a float64 of value 1. -/
theorem C42_inner_dtype_counterexample (put : Int → BitVec 64) (h : ieeeValue (put 1) = 1) :
    ∃ r, inner put (Held.of ⟨[1], [1]⟩ 8 0 : Held Int) (Held.of ⟨[1], [1]⟩ 8 0) 8 0 = some r ∧
      r.data = [put 1] ∧ (put 1).toInt ≠ 1 := by
  rw [inner_raw (L1 := []) (L2 := []) (loop := []) (n := 1) rfl rfl (isBroadcastAll_same [])]
  refine ⟨_, rfl, rfl, fun e => ?_⟩
  have e2 : put 1 = 1#64 := by
    apply BitVec.eq_of_toInt_eq
    rw [e]; rfl
  rw [e2] at h
  exact ieeeValue_one_ne h

example : ieeeValue 0x3FF0000000000000#64 = 1 ∧ (0x3FF0000000000000#64 : BitVec 64).toInt = 4607182418800017408 := by
  constructor
  · have : (0x3FF0000000000000#64 : BitVec 64).msb = false := by decide
    simp only [ieeeValue, this]
    simp
  · decide

/-- C42: the 8-byte stores of `inner` and `outer`, one at each element of a fresh result, stay inside the buffer
exactly when elements have at least 8 bytes or there are none.  So float32, int32 and smaller results
write past the end. -/
theorem f64_stores_in_bounds (s : List Nat) (item : Nat) :
    (∀ idx, InShape s idx → 0 ≤ (View.fresh s item).addr idx ∧ (View.fresh s item).addr idx + 8 ≤ (size s * item : Nat)) ↔
      8 ≤ item ∨ size s = 0 := by
  have hfresh : ∀ idx, InShape s idx → (View.fresh s item).addr idx = (rank s idx : Int) * item := by
    intro idx hi
    rw [cFlag_addr (View.WF.fresh _ _) rfl hi]
    simp [View.fresh]
  constructor
  · intro h
    by_cases hz : size s = 0
    · exact Or.inr hz
    · left
      have hm : size s - 1 ∈ (indices s).map (rank s) := by rw [map_rank_indices]; simp; omega
      obtain ⟨idx, hi, hr⟩ := List.mem_map.1 hm
      have := (h idx (mem_indices.1 hi)).2
      rw [hfresh idx (mem_indices.1 hi), hr] at this
      have e : (size s : Nat) = (size s - 1) + 1 := by omega
      generalize size s - 1 = k at *
      rw [e] at this
      push_cast at this
      have e3 : ((k : Int) + 1) * item = k * item + item := by ring
      rw [e3] at this
      omega
  · rintro (h | h) idx hi
    · rw [hfresh idx hi]
      have hr := rank_lt hi
      refine ⟨by positivity, ?_⟩
      have : ((rank s idx : Int) + 1) * item ≤ (size s : Int) * item := by
        apply Int.mul_le_mul_of_nonneg_right (by omega) (by omega)
      have e3 : ((rank s idx : Int) + 1) * item = rank s idx * item + item := by ring
      push_cast
      omega
    · have := rank_lt hi
      omega

/-- C42: see `f64_stores_in_bounds`: the stores of `inner` with result shape `s`. -/
theorem C42_inner_in_bounds_iff (loop : List Nat) (item : Nat) :
    (∀ l ∈ odometerAll loop, ((View.fresh loop item).gufuncSubarray l loop.length).offset + 8 ≤ (size loop * item : Nat)) ↔
      8 ≤ item ∨ size loop = 0 := by
  rw [← f64_stores_in_bounds, odometerAll_eq]
  have e : ∀ l, InShape loop l → ((View.fresh loop item).gufuncSubarray l loop.length).offset = (View.fresh loop item).addr l := by
    intro l hl
    unfold View.gufuncSubarray
    dsimp only
    have e1 : (View.fresh loop item).shape = loop := rfl
    have e2 : (View.fresh loop item).strides = cStrides loop item := rfl
    rw [e1, e2, Nat.min_self, List.take_length, List.take_of_length_le (by rw [cStrides_length]),
      gufuncDelta_eq _ _ _ hl.length_eq (cStrides_length _ _), zipWith_bc_self hl,
      Int.max_eq_right (byteOffset_nonneg _ _ (cStrides_nonneg item loop)), List.drop_length, if_pos (by rfl)]
    simp [View.viewWith, View.addr, e2]
  constructor
  · intro h idx hi
    refine ⟨?_, by rw [← e idx hi]; exact h idx (mem_indices.2 hi)⟩
    show 0 ≤ (0 : Int) + _
    have := byteOffset_nonneg idx _ (cStrides_nonneg item loop)
    show 0 ≤ (0 : Int) + byteOffset idx (cStrides loop item)
    omega
  · intro h l hl
    rw [e l (mem_indices.1 hl)]
    exact (h l (mem_indices.1 hl)).2

/-! ### gufunc calls: the missing cases of C40 -/

/-- C40, negated: an operand with fewer loop axes than the result is aligned from the left.  The inner products of
rows of shape `(2, 1)` with a stack of shape `(2, 2, 1)` should repeat along the first axis. -/
theorem C40_call_counterexample :
    let a : Held Int := Held.of ⟨[2, 1], [10, 20]⟩ 8 0
    let b : Held Int := Held.of ⟨[2, 2, 1], [1, 1, 1, 1]⟩ 8 0
    ∃ r, inner id a b 8 0 = some r ∧ r.data = [10, 10, 20, 20] ∧
      (indices [2, 2]).map (fun l => (a.nd.coreAt [2, 2] [1] l).get [0] * (b.nd.coreAt [2, 2] [1] l).get [0]) = [10, 20, 10, 20] := by
  intro a b
  have hb : IsBroadcastAll [[2], [2, 2]] [2, 2] := by
    refine ⟨rfl, fun k hk => ?_⟩
    have : k = 0 ∨ k = 1 := by simp at hk; omega
    rcases this with rfl | rfl
    · exact ⟨by simp [dimR], Or.inr ⟨[2], by simp, rfl⟩⟩
    · exact ⟨by simp [dimR], Or.inr ⟨[2, 2], by simp, rfl⟩⟩
  rw [inner_raw (L1 := [2]) (L2 := [2, 2]) (loop := [2, 2]) (n := 1) rfl rfl hb]
  exact ⟨_, rfl, by decide +kernel, by decide +kernel⟩

/-- C40, negated: a negative loop stride is clamped, so all positions read the first element of a
reversed operand. -/
theorem C40_call_stride_counterexample :
    let a : Held Int := ⟨(Held.of ⟨[2, 1], [10, 20]⟩ 8 0 : Held Int).mem, (View.fresh [2, 1] 8).viewWith 8 [2, 1] [-8, 8]⟩
    let b : Held Int := Held.of ⟨[1], [1]⟩ 8 0
    a.nd.toList = [20, 10] ∧ ∃ r, inner id a b 8 0 = some r ∧ r.data = [20, 20] := by
  intro a b
  refine ⟨by decide +kernel, ?_⟩
  rw [inner_raw (L1 := [2]) (L2 := []) (loop := [2]) (n := 1) rfl rfl (isBroadcastAll_left [2])]
  exact ⟨_, rfl, by decide +kernel⟩

/-! ### outer -/

theorem reshape_shape_wf {v w : View} {s : List Nat} (h : v.reshape s = some w) : w.shape = s ∧ w.WF := by
  unfold View.reshape at h
  split at h
  · simp at h
  · split at h
    · simp at h
    · dsimp only at h
      cases h
      refine ⟨rfl, View.WF.viewWith ?_⟩
      split
      · exact cStrides_length _ _
      · exact fStridesLoop_length _ _

theorem reshape_flat_get {a : Held α} (ha : a.view.WF) (hc : a.view.cFlag = true) :
    ∃ w, a.view.reshape [Rumpy.sizeOf a.view.shape] = some w ∧ w.shape = [size a.view.shape] ∧ w.WF ∧
      ∀ i < size a.view.shape, a.nd.toList[i]? = some (a.mem (w.addr [i])) := by
  have hs : (a.view.reshape [Rumpy.sizeOf a.view.shape]).isSome := by
    rw [C08_reshape_succeeds_iff, sizeOf_eq]
    exact ⟨by simp [size], Or.inl hc⟩
  obtain ⟨w, hw⟩ := Option.isSome_iff_exists.1 hs
  obtain ⟨w1, _, w3⟩ := C08_reshape_partial a.mem a.view w ha _ hc hw
  rw [sizeOf_eq] at w1
  refine ⟨w, hw, w1, (reshape_shape_wf hw).2, fun i hi => ?_⟩
  have : a.nd.toList = (w.denote a.mem).toList := w3.symm
  rw [this]
  show ((indices w.shape).map _)[i]? = _
  rw [w1, indices_singleton]
  simp [hi, View.denote]

/-- `outer` of operands that have been flattened. -/
theorem outer_of_flat [Mul α] (put : α → β) (a b : Held α) (item : Nat) (hitem : 0 < item) (zero : β) (z : α) {a' b' : View}
    (ea : a.view.reshape [Rumpy.sizeOf a.view.shape] = some a') (sa : a'.shape = [size a.view.shape]) (wa : a'.WF)
    (na : ∀ i < size a.view.shape, a.nd.toList[i]? = some (a.mem (a'.addr [i])))
    (eb : b.view.reshape [Rumpy.sizeOf b.view.shape] = some b') (sb : b'.shape = [size b.view.shape]) (wb : b'.WF)
    (nb : ∀ i < size b.view.shape, b.nd.toList[i]? = some (b.mem (b'.addr [i]))) :
    ∃ arr, outer put a b item zero = some arr ∧
      arr.Is ⟨[size a.nd.shape, size b.nd.shape], fun idx => put ((outerNd a.nd.toList b.nd.toList z).get idx)⟩ := by
  generalize hm : size a.view.shape = m at *
  generalize hn : size b.view.shape = n at *
  have hr : Resolves outerSig [a'.shape, b'.shape] (fun d => if d = ['m'] then m else n) [[], []] [] :=
    ⟨rfl, by simp [outerSig, sa, sb], isBroadcastAll_same []⟩
  have hins : outerSig.inputs.map (fun ns => ns.map (fun d : List Char => if d = ['m'] then m else n)) = [[m], [n]] := by
    simp [outerSig]
  have houts : [['m'], ['n']].map (outputSize outerSig (fun d => if d = ['m'] then m else n)) = [m, n] := by
    simp [outputSize, outerSig]
  have := C40_call_partial outerSig [['m'], ['n']] rfl (outerKernel put) [⟨a.mem, a'⟩, ⟨b.mem, b'⟩] item hitem zero _ [[], []] [] hr
    (by simp [wa, wb]) (by simp [outerSig]) (by
      intro i h l h1 h2
      match i, h1, h2 with
      | 0, h1, h2 => cases h1; cases h2; exact ⟨Or.inl rfl, by simp⟩
      | 1, h1, h2 => cases h1; cases h2; exact ⟨Or.inl rfl, by simp⟩
      | i + 2, h1, h2 => simp at h1)
    (fun xs c => match xs with
      | [x, y] => put (x.get [c.getD 0 0] * y.get [c.getD 1 0])
      | _ => zero)
    (by
      intro xs ys hxy hsh c hc
      rw [hins] at hsh
      rw [houts] at hc
      obtain ⟨i, j, rfl, hi, hj⟩ := inShape_two hc
      cases hxy with
      | nil => rfl
      | cons hx hxy =>
        cases hxy with
        | nil => rfl
        | cons hy hxy =>
          cases hxy with
          | cons => rfl
          | nil =>
            simp only [List.map_cons, List.map_nil, List.cons.injEq, and_true] at hsh
            simp only [List.getD_cons_zero, List.getD_cons_succ]
            rw [hx.2 [i] (by rw [hsh.1]; simp [InShape, hi]), hy.2 [j] (by rw [hsh.2]; simp [InShape, hj])])
    (by
      intro cores w hsh _ _
      rw [hins] at hsh
      rw [houts]
      have hl := congrArg List.length hsh
      simp only [List.length_map, List.length_cons, List.length_nil] at hl
      obtain ⟨x, y, rfl⟩ := List.length_eq_two.1 hl
      simp only [List.map_cons, List.map_nil, List.cons.injEq, and_true] at hsh
      simp only [outerKernel, hsh.1, hsh.2, List.getD_cons_zero, List.getD_cons_succ, indices_two, List.map_flatMap, List.map_map,
        Function.comp_def, addr_two]
      rfl)
  obtain ⟨arr, h1, h2⟩ := this
  refine ⟨arr, ?_, h2.congr ⟨?_, fun idx hi => ?_⟩⟩
  · unfold outer
    rw [ea, eb]
    exact h1
  · rw [houts]
    show [m, n] = [size a.view.shape, size b.view.shape]
    rw [hm, hn]
  · have hi : InShape ([] ++ [['m'], ['n']].map (outputSize outerSig (fun d => if d = ['m'] then m else n))) idx := hi
    rw [houts] at hi
    obtain ⟨i, j, rfl, hi, hj⟩ := inShape_two hi
    have e1 := na i hi
    have e2 := nb j hj
    simp only [outerSig, List.zipWith_cons_cons, List.zipWith_nil_left, List.map_cons, List.map_nil, List.length_nil, List.take_zero,
      List.drop_zero, List.getD_cons_zero, List.getD_cons_succ, outerNd]
    rw [List.getD_eq_getElem?_getD, List.getD_eq_getElem?_getD, e1, e2, Option.getD_some, Option.getD_some]
    rw [coreAt_none (by simp [Held.nd, View.denote, sa]) (by simp [InShape]) (by simp [InShape, hi]),
      coreAt_none (by simp [Held.nd, View.denote, sb]) (by simp [InShape]) (by simp [InShape, hj])]
    rfl

/-- C42 (partial): `outer` of C-contiguous arrays has the product of the flattened operands at each pair of positions,
as float64.  Missing: other layouts (`C42_outer_accepts_iff`, `C42_outer_fortran_counterexample`) and dtypes
(`C42_outer_in_bounds_iff`, and as for `inner`). -/
theorem C42_outer_partial [Mul α] (put : α → β) (a b : Held α) (item : Nat) (hitem : 0 < item) (zero : β) (z : α)
    (ha : a.view.WF) (hb : b.view.WF) (ca : a.view.cFlag = true) (cb : b.view.cFlag = true) :
    ∃ arr, outer put a b item zero = some arr ∧
      arr.Is ⟨[size a.nd.shape, size b.nd.shape], fun idx => put ((outerNd a.nd.toList b.nd.toList z).get idx)⟩ := by
  obtain ⟨a', ea, sa, wa, na⟩ := reshape_flat_get ha ca
  obtain ⟨b', eb, sb, wb, nb⟩ := reshape_flat_get hb cb
  exact outer_of_flat put a b item hitem zero z ea sa wa na eb sb wb nb

example : (fun (a b : Held Int) => a.view.WF ∧ b.view.WF ∧ a.view.cFlag = true ∧ b.view.cFlag = true ∧
    (outerNd a.nd.toList b.nd.toList 0).toList = [10, 20, 20, 40, 30, 60])
    (Held.of ⟨[3], [1, 2, 3]⟩ 8 0) (Held.of ⟨[2], [10, 20]⟩ 8 0) :=
  ⟨View.WF.fresh _ _, View.WF.fresh _ _, rfl, rfl, by decide⟩

/-- C42: `outer` accepts contiguous operands only; NumPy's accepts any. -/
theorem C42_outer_accepts_iff [Mul α] (put : α → β) (a b : Held α) (item : Nat) (zero : β) :
    (outer put a b item zero).isSome ↔ (a.view.cFlag = true ∨ a.view.fFlag = true) ∧ (b.view.cFlag = true ∨ b.view.fFlag = true) := by
  have h1 := C08_reshape_succeeds_iff a.view [Rumpy.sizeOf a.view.shape]
  have h2 := C08_reshape_succeeds_iff b.view [Rumpy.sizeOf b.view.shape]
  have e1 : size a.view.shape = size [Rumpy.sizeOf a.view.shape] := by rw [sizeOf_eq]; simp [size]
  have e2 : size b.view.shape = size [Rumpy.sizeOf b.view.shape] := by rw [sizeOf_eq]; simp [size]
  simp only [← e1, ← e2, true_and] at h1 h2
  rw [← h1, ← h2]
  unfold outer
  cases hra : a.view.reshape [Rumpy.sizeOf a.view.shape] with
  | none => simp
  | some a' =>
    cases hrb : b.view.reshape [Rumpy.sizeOf b.view.shape] with
    | none => simp
    | some b' =>
      have s1 := (reshape_shape_wf hra).1
      have s2 := (reshape_shape_wf hrb).1
      have hr : Resolves outerSig [a'.shape, b'.shape]
          (fun d => if d = ['m'] then Rumpy.sizeOf a.view.shape else Rumpy.sizeOf b.view.shape) [[], []] [] :=
        ⟨rfl, by simp [outerSig, s1, s2], isBroadcastAll_same []⟩
      simp only [Option.bind_eq_bind, Option.bind_some, gufuncCall, List.map_cons, List.map_nil, resolveDims_eq hr]
      simp

/-- C42, negated: a transposed operand of `outer` is flattened column by column. -/
theorem C42_outer_fortran_counterexample :
    (View.fresh [2, 2] 8).transpose.reshape [4] = some ((View.fresh [2, 2] 8).transpose.viewWith 0 [4] [8]) ∧
    ((View.fresh [2, 2] 8).transpose.denote id).toList = [0, 16, 8, 24] := by
  decide

/-- C42: the float64 stores of `outer` stay inside the result exactly when its elements have at least 8 bytes,
or there are none. -/
theorem C42_outer_in_bounds_iff (m n item : Nat) :
    (∀ x ∈ outerStoreAddrs m n item, 0 ≤ x ∧ x + 8 ≤ (m * n * item : Nat)) ↔ 8 ≤ item ∨ m = 0 ∨ n = 0 := by
  have h := f64_stores_in_bounds [m, n] item
  have e : size [m, n] = m * n := by simp [size]
  rw [e, Nat.mul_eq_zero] at h
  rw [← h]
  constructor
  · intro h idx hi
    obtain ⟨i, j, rfl, hi, hj⟩ := inShape_two hi
    apply h
    refine List.mem_flatMap.2 ⟨i, List.mem_range.2 hi, List.mem_map.2 ⟨j, List.mem_range.2 hj, ?_⟩⟩
    rw [addr_two]
  · intro h x hx
    obtain ⟨i, hi, hx⟩ := List.mem_flatMap.1 hx
    obtain ⟨j, hj, rfl⟩ := List.mem_map.1 hx
    rw [← addr_two]
    exact h [i, j] (by simp [InShape, List.mem_range.1 hi, List.mem_range.1 hj])

example : ¬ (∀ x ∈ outerStoreAddrs 2 3 4, 0 ≤ x ∧ x + 8 ≤ (2 * 3 * 4 : Nat)) := by decide

/-! ### dot and vdot -/

/-- C42 (partial): `dot` of two vectors is the sum of products, and lengths must agree.  Missing: the sum is stored with
the dtype of the first operand, see `C42_dot_dtype_counterexample`. -/
theorem C42_dot_partial [NonUnitalNonAssocSemiring α] (store : α → β) (a b : Held α) (n m : Nat)
    (sa : a.view.shape = [n]) (sb : b.view.shape = [m]) :
    dot1 store a b = if n = m then some ⟨[], [store (∑ k ∈ Finset.range n, a.nd.get [k] * b.nd.get [k])]⟩ else none := by
  unfold dot1
  simp only [sa, sb, List.getD_cons_zero]
  by_cases h : n = m
  · rw [if_neg (by simpa using h), if_pos h, foldl_add_range (fun i => a.mem (a.view.addr [i]) * b.mem (b.view.addr [i]))]
    rfl
  · rw [if_pos h, if_neg h]

/-- C42, negated: int64 `[1, 2]` dot float64 `[1/2, 1/2]` is 3/2, and stored as int64 it is 1. -/
theorem C42_dot_dtype_counterexample :
    dot1 (fun q : ℚ => q.num.tdiv q.den) (Held.of ⟨[2], [1, 2]⟩ 8 0) (Held.of ⟨[2], [1/2, 1/2]⟩ 8 0) = some ⟨[], [(1 : Int)]⟩ ∧
    ((1 : ℚ) * (1/2) + 2 * (1/2) = 3/2) := by
  constructor
  · rw [C42_dot_partial _ _ _ 2 2 rfl rfl]
    rw [if_pos rfl, Finset.sum_range_succ, Finset.sum_range_succ, Finset.sum_range_zero]
    rw [show (Held.of ⟨[2], [1, 2]⟩ 8 0 : Held ℚ).nd.get [0] = 1 from rfl, show (Held.of ⟨[2], [1, 2]⟩ 8 0 : Held ℚ).nd.get [1] = 2 from rfl,
      show (Held.of ⟨[2], [1/2, 1/2]⟩ 8 0 : Held ℚ).nd.get [0] = 1/2 from rfl,
      show (Held.of ⟨[2], [1/2, 1/2]⟩ 8 0 : Held ℚ).nd.get [1] = 1/2 from rfl]
    norm_num
    decide
  · norm_num

/-- C42: `vdot` is the sum of products of the flattened operands, whatever their layouts and shapes, and is refused exactly
when the numbers of elements differ. -/
theorem C42_vdot [NonUnitalNonAssocSemiring α] (a b : Held α) (ha : a.view.WF) (hb : b.view.WF) :
    vdot a b = if size a.nd.shape = size b.nd.shape then some (List.zipWith (· * ·) a.nd.toList b.nd.toList).sum else none := by
  unfold vdot
  rw [sizeOf_eq, sizeOf_eq]
  show (if size a.nd.shape ≠ size b.nd.shape then _ else _) = _
  by_cases h : size a.nd.shape = size b.nd.shape
  · rw [if_neg (by simpa using h), if_pos h, addrs_eq ha, addrs_eq hb]
    congr 1
    have e : ∀ (xs ys : List Int), (xs.zip ys).foldl (fun s p => s + a.mem p.1 * b.mem p.2) 0
        = (List.zipWith (· * ·) (xs.map a.mem) (ys.map b.mem)).sum := by
      intro xs ys
      have gen : ∀ (xs ys : List Int) (z : α), (xs.zip ys).foldl (fun s p => s + a.mem p.1 * b.mem p.2) z
          = z + (List.zipWith (· * ·) (xs.map a.mem) (ys.map b.mem)).sum := by
        intro xs
        induction xs with
        | nil => intro ys z; simp
        | cons x xs ih =>
          intro ys z
          cases ys with
          | nil => simp
          | cons y ys => simp only [List.zip_cons_cons, List.foldl_cons, List.map_cons, List.zipWith_cons_cons, List.sum_cons, ih, add_assoc]
      rw [gen, zero_add]
    rw [e, List.map_map, List.map_map]
    rfl
  · rw [if_pos h, if_neg h]

example : vdot (⟨fun x => x, (View.fresh [2, 2] 1).transpose⟩ : Held Int) (Held.of ⟨[4], [1, 10, 100, 1000]⟩ 8 0) = some (0 + 20 + 100 + 3000) := by
  decide +kernel

/-! ### cross -/

/-- C42: `cross` of two vectors of length 3 is their cross product, and anything else is refused. -/
theorem C42_cross [CommRing α] (a b : Held α) :
    (a.view.shape = [3] → b.view.shape = [3] → ∃ arr, cross a b 0 = some arr ∧ arr.shape = [3] ∧
      arr.data = List.ofFn (crossProduct (fun i : Fin 3 => a.nd.get [(i : Nat)]) (fun i : Fin 3 => b.nd.get [(i : Nat)]))) ∧
    ((cross a b 0).isSome → a.view.shape = [3] ∧ b.view.shape = [3]) := by
  constructor
  · intro ha hb
    unfold cross
    rw [if_neg (by simp [ha, hb]), if_neg (by simp [ha, hb])]
    refine ⟨_, rfl, rfl, ?_⟩
    simp [writes, crossProduct, LinearMap.mk₂, List.ofFn_succ, List.replicate, Held.nd, View.denote]
  · intro h
    unfold cross at h
    split at h
    · simp at h
    · next h1 =>
      split at h
      · simp at h
      · next h2 =>
        push Not at h1 h2
        obtain ⟨x, hx⟩ := List.length_eq_one_iff.1 h1.1
        obtain ⟨y, hy⟩ := List.length_eq_one_iff.1 h1.2
        rw [hx, hy] at h2 ⊢
        simpa using h2

example : (cross (Held.of ⟨[3], [1, 2, 3]⟩ 8 0 : Held Int) (Held.of ⟨[3], [4, 5, 6]⟩ 8 0) 0).map (·.data) = some [-3, 6, -3] := by
  decide

end Props
