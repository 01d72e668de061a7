import Verif.Lemmas.Rearrange
import Verif.Lemmas.Float
import Verif.Props.Views
import Verif.Props.Reshape
/-!
# C43: roll, rot90, tile, repeat and pad
-/

namespace Props
open Spec Rumpy

/-- Every element of the array survives being read and written as a 64-bit float. -/
def FloatExact (conv : α → α) (a : Nd α) : Prop := ∀ idx, InShape a.shape idx → conv (a.get idx) = a.get idx

/-- 64-bit integers of absolute value at most `2^53` do. -/
theorem floatExact_int64 (a : Nd Int) (h : ∀ idx, InShape a.shape idx → (a.get idx).natAbs ≤ 2 ^ 53) :
    FloatExact viaF64 a := fun idx hi => viaF64_exact (h idx hi)

/-- The strides of the array are multiples of the element size (needed by the copy loop for 8-byte
dtypes; every view made by indexing has it). -/
def Aligned (v : View) : Prop := ∀ s ∈ v.strides, (v.item : Int) ∣ s

/-! ### repeat -/

/-- C43: `repeat(a, n)` is every element, in row-major order, `n` times (as the float conversion leaves it). -/
theorem C43_repeat_flat (conv : α → α) (mem : Int → α) (v : View) (hw : v.WF) (n : Nat) (zero : α) :
    ∃ r, repeatArr conv mem v n none zero = some r ∧ r.shape = [size v.shape * n] ∧
      r.data = ((v.denote mem).toList.flatMap fun x => List.replicate n (conv x)) := by
  unfold repeatArr
  by_cases hn : n = 0
  · rw [if_pos hn]
    subst hn
    exact ⟨_, rfl, rfl, by simp⟩
  · rw [if_neg hn]
    exact ⟨_, rfl, by simp [sizeOf_eq], repeatFlat_data conv mem hw n zero⟩

/-- C43, proved part: `repeat(a, n, axis)` for `n > 0` and elements that a 64-bit float holds exactly.
Missing: `n = 0` and wide integers, see the counterexamples. -/
theorem C43_repeat_axis_partial (conv : α → α) (mem : Int → α) (v : View) (n : Nat) (hn : 0 < n) (ax : Int) (axis : Nat)
    (hax : pyIndex v.shape.length ax = some axis) (hex : FloatExact conv (v.denote mem)) (zero : α) :
    ∃ r, repeatArr conv mem v n (some ax) zero = some r ∧ r.Is ((v.denote mem).repeatAxis axis n) := by
  have hlt := pyIndex_lt hax
  unfold repeatArr
  rw [if_neg (by omega)]
  dsimp only
  rw [wrapAxis_eq, hax]
  refine ⟨_, rfl, rfl, ?_⟩
  dsimp only
  rw [repeatAxis_data (fun idx => conv (mem (v.addr idx))) v.shape axis n hn hlt]
  show _ = (indices (v.shape.modify axis (· * n))).map fun idx => mem (v.addr (idx.modify axis (· / n)))
  apply List.map_congr_left
  intro idx hi
  apply hex
  have hi := mem_indices.1 hi
  rw [modify_eq_set _ _ _ hlt] at hi
  exact inShape_modify hlt hi (fun k hk => Nat.div_lt_of_lt_mul (by rw [Nat.mul_comm]; exact hk))

/-- An axis outside `-ndim … ndim - 1` is an error. -/
theorem C43_repeat_axis_error (conv : α → α) (mem : Int → α) (v : View) (n : Nat) (hn : 0 < n) (ax : Int) (zero : α) :
    (repeatArr conv mem v n (some ax) zero).isSome ↔ (pyIndex v.shape.length ax).isSome := by
  unfold repeatArr
  rw [if_neg (by omega)]
  dsimp only
  rw [wrapAxis_eq]
  cases pyIndex v.shape.length ax <;> simp

example : repeatArr viaF64 (fun p => p) (View.fresh [2, 2] 1) 2 (some (-1)) 0
    = some ⟨[2, 4], [0, 0, 1, 1, 2, 2, 3, 3]⟩ := by decide

/-- C43 fails for `repeat(a, 0, axis)`: the result must keep the other axes; the code returns a vector. -/
theorem C43_repeat_zero_counterexample :
    repeatArr id (fun p => p) (View.fresh [2, 3] 1) 0 (some 1) 0 = some ⟨[0], []⟩ ∧
    (((View.fresh [2, 3] 1).denote id).repeatAxis 1 0).shape = [2, 0] := by decide

/-- C43 fails for wide integers: repeating `2^53 + 1` yields `2^53`. -/
theorem C43_repeat_wide_counterexample :
    repeatArr viaF64 (fun _ => 2 ^ 53 + 1) (View.fresh [1] 8) 2 none 0 = some ⟨[2], [2 ^ 53, 2 ^ 53]⟩ := by
  decide +kernel

/-! ### roll -/

/-- C43, proved part: `roll(a, shift, axis)` moves every element by `shift` places along the axis, wrapping
around, for any shift of either sign.  Missing: wide integers, and an axis out of range
(`C43_roll_axis_counterexample`). -/
theorem C43_roll_axis_partial (eight : Bool) (conv : α → α) (h : Held α) (hw : h.view.WF) (hal : eight = true → Aligned h.view)
    (shift ax : Int) (axis : Nat) (hax : pyIndex h.view.shape.length ax = some axis) (hex : FloatExact conv h.nd) (zero : α) :
    ∃ r, rollArr eight conv h shift (some ax) zero = some r ∧ r.Is (h.nd.roll axis shift) := by
  have hlt := pyIndex_lt hax
  have hcp := copyArr_eq eight h.mem hw hal zero
  set n := h.view.shape.getD axis 0 with hn
  -- the copy is right when nothing moves
  have hsame : (shift % (n : Int) = 0 ∨ n = 0) → ((h.view.denote h.mem).Same (h.nd.roll axis shift)) := by
    intro h0
    refine ⟨rfl, fun idx hi => ?_⟩
    have hl : idx.length = h.view.shape.length := hi.length_eq
    have hk := (inShape_iff_getD.1 hi).2 axis hlt
    show (h.view.denote h.mem).get idx = h.nd.get _
    congr 1
    rw [modify_eq_set _ _ _ (by omega)]
    have hk' : idx.getD axis 0 < n := hk
    have : (((idx.getD axis 0 : Int) - shift) % (h.nd.shape.getD axis 0 : Int)).toNat = idx.getD axis 0 := by
      show (((idx.getD axis 0 : Int) - shift) % (n : Int)).toNat = _
      rcases h0 with h0 | h0
      · have hd : (n : Int) ∣ shift := Int.dvd_of_emod_eq_zero h0
        obtain ⟨c, rfl⟩ := hd
        rw [Int.sub_mul_emod_self_left, Int.emod_eq_of_lt (by omega) (by omega)]
        omega
      · omega
    rw [this, Rumpy.set_getD_self (by omega)]
  unfold rollArr
  dsimp only
  rw [wrapAxis_eq, hax]
  dsimp only
  rw [← hn]
  by_cases hn0 : n = 0
  · rw [if_pos hn0]
    exact ⟨_, rfl, hcp.congr (hsame (Or.inr hn0))⟩
  rw [if_neg hn0]
  have hns := normShift_eq shift n (by omega)
  by_cases hs0 : normShift shift n = 0
  · rw [if_pos hs0]
    exact ⟨_, rfl, hcp.congr (hsame (Or.inl (by rw [← hns, hs0]; rfl)))⟩
  rw [if_neg hs0]
  refine ⟨_, rfl, rfl, ?_⟩
  dsimp only
  rw [gatherLoop_eq]
  show _ = (indices h.view.shape).map (h.nd.roll axis shift).get
  apply List.map_congr_left
  intro idx hi
  have hi := mem_indices.1 hi
  have hl := hi.length_eq
  have hk : idx.getD axis 0 < n := (inShape_iff_getD.1 hi).2 axis hlt
  have hin : InShape h.view.shape (idx.set axis ((idx.getD axis 0 + n - normShift shift n) % n)) := by
    rw [← modify_eq_set idx axis (fun k => (k + n - normShift shift n) % n) (by omega)]
    refine inShape_modify (n := n) hlt ?_ (fun k _ => Nat.mod_lt _ (by omega))
    rw [hn, Rumpy.set_getD_self hlt]; exact hi
  have := hex _ hin
  show conv (h.nd.get _) = h.nd.get _
  rw [this]
  congr 1
  rw [modify_eq_set _ _ _ (by omega)]
  congr 1
  show _ = (((idx.getD axis 0 : Int) - shift) % (n : Int)).toNat
  have hlt2 : normShift shift n < n := by
    have := Int.emod_lt_of_pos shift (b := (n : Int)) (by omega)
    omega
  have e : ((idx.getD axis 0 : Int) - shift) % (n : Int) = ((idx.getD axis 0 + n - normShift shift n : Nat) : Int) % (n : Int) := by
    rw [Int.natCast_sub (by omega), hns]
    push_cast
    rw [show (idx.getD axis 0 : Int) + n - shift % n = (idx.getD axis 0 - shift % n) + n by ring, Int.add_emod_right, Int.sub_emod_emod]
  rw [e, ← Int.natCast_mod, Int.toNat_natCast]

example : rollArr false viaF64 (Held.mk (fun p => p) (View.fresh [2, 3] 1)) (-4) (some 1) 0
    = some ⟨[2, 3], [1, 2, 0, 4, 5, 3]⟩ := by decide

/-- C43 fails for an axis out of range: NumPy raises an error, the code returns an unrolled copy. -/
theorem C43_roll_axis_counterexample :
    pyIndex 1 3 = none ∧
    rollArr false id (Held.mk (fun p => p) (View.fresh [3] 1)) 1 (some 3) 0 = some ⟨[3], [0, 1, 2]⟩ := by decide

/-- C43, proved part: `roll(a, shift)` rolls the row-major sequence and keeps the shape, for an array that is
C-contiguous or not contiguous at all.  Missing: F-contiguous arrays, `C43_roll_fortran_counterexample`. -/
theorem C43_roll_flat_partial (eight : Bool) (conv : α → α) (h : Held α) (hw : h.view.WF) (hitem : 0 < h.view.item)
    (hal : eight = true → Aligned h.view) (hf : h.view.cFlag = true ∨ h.view.fFlag = false) (shift : Int) (zero : α) :
    ∃ r nd, rollArr eight conv h shift none zero = some r ∧ r.Is nd ∧ Nd.IsRolledFlat h.nd nd shift := by
  have hcp := copyArr_eq eight h.mem hw hal zero
  obtain ⟨f, h1, _, h3, _, h5, h6, h7⟩ := ravelArr_eq eight h hw hitem hal hf zero
  set s := h.view.shape with hs
  have hnds : h.nd.shape = s := rfl
  have hcopy : (shift % (size s : Int) = 0 ∨ size s = 0) → Nd.IsRolledFlat h.nd h.nd shift := by
    intro h0
    refine ⟨rfl, fun i j hi hj e => ?_⟩
    rw [hnds] at hi hj e
    have h8 := rank_lt hi
    rcases h0 with h0 | h0
    · rw [Int.add_emod, h0, Int.add_zero, Int.emod_emod_of_dvd _ (Int.dvd_refl _), Int.emod_eq_of_lt (by omega) (by omega)] at e
      rw [rank_inj hj hi (by omega)]
    · omega
  have hszf : Rumpy.sizeOf f.view.shape = size s := by rw [h3]; simp [Rumpy.sizeOf]
  unfold rollArr
  dsimp only
  rw [h1]
  simp only [Option.bind_eq_bind, Option.bind_some, hszf]
  by_cases hz : size s = 0
  · rw [if_pos hz]
    exact ⟨_, h.nd, rfl, hcp, hcopy (Or.inr hz)⟩
  rw [if_neg hz]
  have hns := normShift_eq shift (size s) (by omega)
  by_cases hs0 : normShift shift (size s) = 0
  · rw [if_pos hs0]
    exact ⟨_, h.nd, rfl, hcp, hcopy (Or.inl (by rw [← hns, hs0]; rfl))⟩
  rw [if_neg hs0]
  set k := normShift shift (size s) with hk
  have hkn : k < size s := by
    have := Int.emod_lt_of_pos shift (b := (size s : Int)) (by omega)
    omega
  let g : Nat → α := fun p => f.mem (f.view.offset + ((p + (size s - k)) % size s : Nat) * (f.view.item : Int))
  refine ⟨_, ⟨s, fun idx => g (rank s idx)⟩, rfl, ⟨rfl, ?_⟩, ⟨rfl, ?_⟩⟩
  · dsimp only
    apply writes_cover (s := s) (f := fun idx => g (rank s idx)) (by simp only [List.length_replicate, sizeOf_eq, hs])
    · intro w hw
      rcases List.mem_append.1 hw with hw | hw
      · obtain ⟨m, hm, rfl⟩ := List.mem_map.1 hw
        rw [List.mem_range] at hm
        obtain ⟨idx, hi, hr⟩ := exists_rank (s := s) (r := m) (by omega)
        refine ⟨idx, hi, ?_⟩
        rw [hr]
        show (m, f.mem _) = (m, g m)
        simp only [g]
        rw [Nat.mod_eq_of_lt (by omega : m + (size s - k) < size s), Nat.add_comm m]
      · obtain ⟨m, hm, rfl⟩ := List.mem_map.1 hw
        rw [List.mem_range] at hm
        obtain ⟨idx, hi, hr⟩ := exists_rank (s := s) (r := k + m) (by omega)
        refine ⟨idx, hi, ?_⟩
        rw [hr]
        show (k + m, f.mem _) = (k + m, g (k + m))
        simp only [g]
        have : (k + m + (size s - k)) % size s = m := by
          rw [show k + m + (size s - k) = m + size s by omega, Nat.add_mod_right, Nat.mod_eq_of_lt (by omega)]
        rw [this]
    · intro idx hi
      have hi : InShape s idx := hi
      have hr := rank_lt hi
      rw [List.mem_append]
      by_cases hlt : rank s idx < k
      · left
        rw [List.mem_map]
        refine ⟨rank s idx, List.mem_range.2 hlt, ?_⟩
        simp only [g]
        rw [Nat.mod_eq_of_lt (by omega : rank s idx + (size s - k) < size s), Nat.add_comm (rank s idx)]
      · right
        rw [List.mem_map]
        refine ⟨rank s idx - k, List.mem_range.2 (by omega), ?_⟩
        simp only [g]
        have : (rank s idx + (size s - k)) % size s = rank s idx - k := by
          rw [show rank s idx + (size s - k) = (rank s idx - k) + size s by omega, Nat.add_mod_right, Nat.mod_eq_of_lt (by omega)]
        rw [this, show k + (rank s idx - k) = rank s idx by omega]
  · intro i j hi hj e
    rw [hnds] at hi hj e
    have hri := rank_lt hi
    have hrj := rank_lt hj
    have hti := toList_getElem? (nd := h.nd) (idx := i) hi
    rw [hnds] at hti
    have h8 := h7 (rank s i) hri
    rw [hti, Option.some.injEq] at h8
    show g (rank s j) = _
    rw [← h8]
    simp only [g]
    have : (rank s j + (size s - k)) % size s = rank s i := by
      have hh : ((rank s j + (size s - k) : Nat) : Int) % (size s : Int) = (rank s i : Int) := by
        push_cast [Int.natCast_sub (Nat.le_of_lt hkn)]
        rw [← e, hns]
        rw [show ((rank s i : Int) + shift) % size s + (size s - shift % size s) = (((rank s i : Int) + shift) % size s - shift % size s) + size s by ring,
          Int.add_emod_right, ← Int.sub_emod]
        rw [Int.add_sub_cancel, Int.emod_eq_of_lt (by omega) (by omega)]
      omega
    rw [this]

example : rollArr false viaF64 (Held.mk (fun p => p) (View.fresh [2, 3] 1)) 2 none 0
    = some ⟨[2, 3], [4, 5, 0, 1, 2, 3]⟩ := by decide

/-- C43 fails for a transposed matrix: rolling `[[0, 2], [1, 3]]` (a transpose) by one must give
`[[3, 0], [2, 1]]`; the code rolls the memory order. -/
theorem C43_roll_fortran_counterexample :
    rollArr false id (Held.mk (fun p => p) (View.fresh [2, 2] 1).transpose) 1 none 0 = some ⟨[2, 2], [3, 0, 1, 2]⟩ ∧
    ¬ Nd.IsRolledFlat (Held.mk (fun p => p) (View.fresh [2, 2] 1).transpose).nd
      (Held.of ⟨[2, 2], [3, 0, 1, 2]⟩ 1 (0 : Int)).nd 1 := by
  refine ⟨by decide, fun h => ?_⟩
  have := h.2 [0, 1] [1, 0] (by decide) (by decide) (by decide)
  exact absurd this (by decide)

/-! ### tile -/

/-- C43, proved part: `tile(a, reps)` is copies of `a` side by side.  Missing: wide integers, and `reps` made
of ones only but longer than the number of axes (`C43_tile_ones_counterexample`). -/
theorem C43_tile_partial (eight : Bool) (conv : α → α) (mem : Int → α) (v : View) (hw : v.WF) (hal : eight = true → Aligned v)
    (reps : List Nat) (hr : reps.length ≤ v.shape.length ∨ ∃ r ∈ reps, r ≠ 1)
    (hex : FloatExact conv (v.denote mem)) (zero : α) :
    (tileArr eight conv mem v reps zero).Is ((v.denote mem).tile reps) := by
  have hcp := copyArr_eq eight mem hw hal zero
  unfold tileArr
  by_cases h1 : (reps.isEmpty || reps.all (· == 1)) = true
  · rw [if_pos h1]
    have hall : ∀ r ∈ reps, r = 1 := by
      rcases Bool.or_eq_true_iff.1 h1 with h | h
      · have : reps = [] := by simpa using h
        subst this; simp
      · simpa using h
    have hle : reps.length ≤ v.shape.length := by
      rcases hr with h | ⟨r, hr, hne⟩
      · exact h
      · exact absurd (hall r hr) hne
    refine hcp.congr ?_
    have hmax : max v.shape.length reps.length = v.shape.length := by omega
    have hones : Nd.padOnes v.shape.length reps = List.replicate v.shape.length 1 := by
      rw [List.eq_replicate_iff]
      refine ⟨by simp [Nd.padOnes]; omega, fun b hb => ?_⟩
      rcases List.mem_append.1 hb with hb | hb
      · exact (List.mem_replicate.1 hb).2
      · exact hall b hb
    have hself : Nd.padOnes v.shape.length v.shape = v.shape := by simp [Nd.padOnes]
    refine ⟨?_, fun idx hi => ?_⟩
    · show v.shape = List.zipWith (· * ·) (Nd.padOnes (max v.shape.length reps.length) v.shape)
        (Nd.padOnes (max v.shape.length reps.length) reps)
      rw [hmax, hones, hself]
      apply ext_getD
      · simp
      · intro k hk
        rw [zipWith_getD _ hk (by simpa using hk), List.getD_eq_getElem (List.replicate _ _) _ (by simpa using hk)]
        simp
    · show mem (v.addr idx) = mem (v.addr (List.drop (max v.shape.length reps.length - v.shape.length) (List.zipWith (· % ·) idx (Nd.padOnes (max v.shape.length reps.length) v.shape))))
      rw [hmax, Nat.sub_self, List.drop_zero, hself]
      congr 2
      have hi : InShape v.shape idx := hi
      rw [inShape_iff_getD] at hi
      apply ext_getD
      · simp [hi.1]
      · intro k hk
        rw [zipWith_getD _ hk (by omega), Nat.mod_eq_of_lt (hi.2 k (by omega))]
  · rw [if_neg h1]
    dsimp only
    have hpo : ∀ n s, onesLeft n s = Nd.padOnes n s := fun _ _ => rfl
    rw [hpo, hpo]
    set n := max v.shape.length reps.length with hn
    by_cases hfast : v.shape.length = 1 ∧ reps.length = 1 ∧ v.cFlag = true
    · rw [if_pos hfast]
      obtain ⟨f1, f2, f3⟩ := hfast
      obtain ⟨len, hlen⟩ := List.length_eq_one_iff.1 f1
      obtain ⟨m, hm⟩ := List.length_eq_one_iff.1 f2
      have hn1 : n = 1 := by omega
      refine ⟨rfl, ?_⟩
      show writes _ _ = (indices (List.zipWith (· * ·) (Nd.padOnes n v.shape) (Nd.padOnes n reps))).map ((v.denote mem).tile reps).get
      have hout : List.zipWith (· * ·) (Nd.padOnes n v.shape) (Nd.padOnes n reps) = [len * m] := by
        rw [hn1, hlen, hm]; rfl
      have hso : Rumpy.sizeOf [len * m] = len * m := by simp [Rumpy.sizeOf]
      have hsl : Rumpy.sizeOf v.shape = len := by rw [hlen]; simp [Rumpy.sizeOf]
      rw [hout, hso, hsl, hm]
      have := writes_blocks (fun k : Nat => mem (v.offset + (k : Int) * v.item)) m len zero
      rw [List.getD_cons_zero, this, indices_singleton, List.map_map]
      apply List.map_congr_left
      intro p hp
      rw [List.mem_range] at hp
      have hlpos : 0 < len := by
        rcases Nat.eq_zero_or_pos len with h0 | h0
        · subst h0; simp at hp
        · exact h0
      show _ = mem (v.addr (List.drop (max v.shape.length [m].length - v.shape.length) (List.zipWith (· % ·) [p] (Nd.padOnes (max v.shape.length [m].length) v.shape))))
      have e : List.drop (max v.shape.length [m].length - v.shape.length) (List.zipWith (· % ·) [p] (Nd.padOnes (max v.shape.length [m].length) v.shape)) = [p % len] := by
        rw [hlen]; rfl
      rw [e, cFlag_addr hw f3 (by rw [hlen]; exact ⟨Nat.mod_lt _ hlpos, trivial⟩), hlen]
      simp [rank, size]
    · rw [if_neg hfast]
      refine ⟨rfl, ?_⟩
      dsimp only
      rw [gatherLoop_eq]
      show _ = (indices (List.zipWith (· * ·) (Nd.padOnes n v.shape) (Nd.padOnes n reps))).map ((v.denote mem).tile reps).get
      apply List.map_congr_left
      intro idx hi
      have hi := mem_indices.1 hi
      have hsrc := tile_source (s := v.shape) (reps := reps) hi
      have hd : (if v.shape.length < n then (List.zipWith (· % ·) idx (Nd.padOnes n v.shape)).drop (n - v.shape.length)
          else List.zipWith (· % ·) idx (Nd.padOnes n v.shape)) =
          (List.zipWith (· % ·) idx (Nd.padOnes n v.shape)).drop (n - v.shape.length) := by
        split
        · rfl
        · rw [show n - v.shape.length = 0 by omega, List.drop_zero]
      rw [hd]
      exact hex _ hsrc

example : tileArr false viaF64 (fun p => p) (View.fresh [2, 2] 1) [2, 1, 2] 0
    = ⟨[2, 2, 4], [0, 1, 0, 1, 2, 3, 2, 3, 0, 1, 0, 1, 2, 3, 2, 3]⟩ := by decide

/-- C43 fails for `tile([0, 1], (1, 1))`: NumPy gives shape `(1, 2)`, the code keeps `(2,)`. -/
theorem C43_tile_ones_counterexample :
    (tileArr false id (fun p => p) (View.fresh [2] 1) [1, 1] 0).shape = [2] ∧
    (((View.fresh [2] 1).denote id).tile [1, 1]).shape = [1, 2] := by decide

/-! ### pad -/

/-- C43: `pad` is defined exactly for one pair of widths per axis and the modes `constant` and `edge`. -/
theorem C43_pad_succeeds_iff (conv : α → α) (mem : Int → α) (v : View) (w : List (Nat × Nat)) (mode : PadMode) (c zero : α) :
    (padArr conv mem v w mode c zero).isSome ↔ w.length = v.shape.length ∧ mode ≠ .other := by
  unfold padArr
  split
  · rename_i h; simp [h]
  · rename_i h
    cases mode <;> simp_all

/-- C43, proved part: constant padding puts the array in the middle and the constant everywhere else.
Missing: wide integers. -/
theorem C43_pad_constant_partial (conv : α → α) (mem : Int → α) (v : View) (w : List (Nat × Nat)) (hl : w.length = v.shape.length)
    (hex : FloatExact conv (v.denote mem)) (c zero : α) :
    ∃ r, padArr conv mem v w .constant c zero = some r ∧ r.Is ((v.denote mem).padConst w c) := by
  unfold padArr
  rw [if_neg (by omega)]
  exact ⟨_, rfl, paddedShape_eq _ _, copyRegion_eq conv mem v hl c hex⟩

/-- C43, proved part: edge padding repeats the nearest element.  Missing: wide integers and arrays without
elements (`C43_pad_edge_counterexample`). -/
theorem C43_pad_edge_partial (conv : α → α) (mem : Int → α) (v : View) (w : List (Nat × Nat)) (hl : w.length = v.shape.length)
    (hpos : ∀ n ∈ v.shape, 0 < n) (hex : FloatExact conv (v.denote mem)) (c zero : α) :
    ∃ r, padArr conv mem v w .edge c zero = some r ∧ r.Is ((v.denote mem).padEdge w) := by
  unfold padArr
  rw [if_neg (by omega)]
  refine ⟨_, rfl, paddedShape_eq _ _, ?_⟩
  show gatherLoop (paddedShape v.shape w) _ _ = (indices (Nd.padShape v.shape w)).map ((v.denote mem).padEdge w).get
  rw [gatherLoop_eq, paddedShape_eq]
  apply List.map_congr_left
  intro idx hi
  have hil := (mem_indices.1 hi).length_eq
  rw [padShape_length hl] at hil
  rw [edgeIndex_eq hl hil hpos]
  apply hex
  show InShape v.shape _
  rw [inShape_iff_getD]
  refine ⟨by simp, fun k hk => ?_⟩
  rw [List.getD_eq_getElem _ _ (by simpa using hk)]
  simp only [List.getElem_map, List.getElem_range]
  have : 0 < v.shape.getD k 0 := by
    rw [List.getD_eq_getElem _ _ hk]; exact hpos _ (List.getElem_mem hk)
  omega

example : padArr viaF64 (fun p => p) (View.fresh [2, 2] 1) [(1, 0), (0, 2)] .edge 9 0
    = some ⟨[3, 4], [0, 1, 1, 1, 0, 1, 1, 1, 2, 3, 3, 3]⟩ := by decide
example : padArr viaF64 (fun p => p) (View.fresh [2, 2] 1) [(1, 0), (0, 1)] .constant 9 0
    = some ⟨[3, 3], [9, 9, 9, 0, 1, 9, 2, 3, 9]⟩ := by decide

/-- C43 fails for edge padding of an empty array: NumPy refuses, the code reads memory that is not part of
the array (here byte address 0 of an empty buffer). -/
theorem C43_pad_edge_counterexample (mem : Int → α) (c zero : α) :
    padArr id mem (View.fresh [0] 1) [(1, 1)] .edge c zero = some ⟨[2], [mem 0, mem 0]⟩ ∧
    indices (View.fresh [0] 1).shape = [] := by
  refine ⟨?_, by decide⟩
  simp [padArr, paddedShape, View.fresh, gatherLoop_eq, indices, edgeIndex, View.addr, byteOffset, cStrides, cStridesAux, List.range_succ]

/-! ### rot90 -/

theorem flip_swap_same (a : Nd α) {p q : Nat} (hp : p < a.shape.length) (hq : q < a.shape.length) (hne : p ≠ q) :
    ((a.flip q).transposeAxes (View.swapOrder a.shape.length p q)).Same (a.quarterTurn p q) := by
  obtain ⟨hperm, hget⟩ := C06_swap_order_perm a.shape.length p q hp hq
  refine (transposeAxes_swap_same (a.flip q) hp hq hperm hget).trans ⟨rfl, fun idx hi => ?_⟩
  have hil : idx.length = a.shape.length := by rw [hi.length_eq]; simp [Nd.flip]
  show a.get _ = a.get _
  congr 1
  rw [set_modify_self]

theorem flip_swap_three (a : Nd α) {p q : Nat} (hp : p < a.shape.length) (hq : q < a.shape.length) (hne : p ≠ q) :
    ((a.flip p).transposeAxes (View.swapOrder a.shape.length p q)).Same (((a.quarterTurn p q).quarterTurn p q).quarterTurn p q) := by
  obtain ⟨hperm, hget⟩ := C06_swap_order_perm a.shape.length p q hp hq
  have h2 := quarterTurn_two a hp hq hne
  have hl2 : ((a.quarterTurn p q).quarterTurn p q).shape.length = a.shape.length := by simp [Nd.quarterTurn]
  refine (transposeAxes_swap_same (a.flip p) hp hq hperm hget).trans ?_
  refine Nd.Same.symm ((Nd.Same.quarterTurn h2 (by omega) (by omega) hne).trans ⟨rfl, fun idx hi => ?_⟩)
  have hil : idx.length = a.shape.length := by rw [hi.length_eq]; simp [Nd.quarterTurn, Nd.flip]
  have hi' := hi
  rw [inShape_iff_getD] at hi'
  have hip := hi'.2 p (by simp [Nd.quarterTurn, Nd.flip]; exact hp)
  rw [quarterTurn_shape_getD _ (by simpa [Nd.flip] using hp) (by simpa [Nd.flip] using hq), if_neg (Ne.symm hne), if_pos rfl] at hip
  have hip : idx.getD p 0 < a.shape.getD q 0 := hip
  show a.get (List.modify (List.modify _ q _) p _) = a.get _
  congr 1
  show List.modify (List.modify _ q (fun k => a.shape.getD q 0 - 1 - k)) p (fun k => a.shape.getD p 0 - 1 - k)
    = List.modify _ p (fun k => a.shape.getD p 0 - 1 - k)
  congr 1
  show List.modify ((idx.set p (idx.getD q 0)).set q (a.shape.getD q 0 - 1 - idx.getD p 0)) q _ = _
  rw [set_modify_self]
  congr 1
  omega

/-- C43, proved part: `rot90(a, k, axes)` is `k` quarter turns (modulo four, `k` of either sign) from the first
axis towards the second, on an array whose two axes are not reversed.  Missing: reversed axes, for which
flipping is wrong (`C07_flip_twice_counterexample`, `C43_rot90_counterexample`). -/
theorem C43_rot90_partial (mem : Int → α) (v : View) (hw : v.WF) (hpos : ∀ s ∈ v.strides, 0 ≤ s) (k ax0 ax1 : Int) (p q : Nat)
    (h0 : pyIndex v.shape.length ax0 = some p) (h1 : pyIndex v.shape.length ax1 = some q) (hne : p ≠ q) :
    ∃ v', v.pyRot90 k ax0 ax1 = some v' ∧
      (v'.denote mem).Same ((v.denote mem).quarterTurns p q (k % 4).toNat) := by
  have hp := pyIndex_lt h0
  have hq := pyIndex_lt h1
  have hst : ∀ a, a < v.shape.length → ∃ st, v.strides[a]? = some st ∧ 0 ≤ st := by
    intro a ha
    have ha' : a < v.strides.length := by rw [hw.len]; exact ha
    exact ⟨_, List.getElem?_eq_getElem ha', hpos _ (List.getElem_mem ha')⟩
  obtain ⟨sp, hsp, hsp0⟩ := hst p hp
  obtain ⟨sq, hsq, hsq0⟩ := hst q hq
  unfold View.pyRot90
  rw [if_neg (by omega), wrapAxis_eq, wrapAxis_eq, h0, h1]
  dsimp only
  rw [if_neg hne]
  unfold View.rot90
  have hk : (Int.tmod k 4 + 4).toNat % 4 = (k % 4).toNat := by
    have := normShift_eq k 4 (by omega)
    unfold normShift at this
    have h4 : ((4 : Nat) : Int) = 4 := rfl
    rw [h4] at this
    omega
  dsimp only
  rw [hk]
  have hlt : (k % 4).toNat < 4 := by omega
  set m := (k % 4).toNat
  have hturn : ∀ (ax : Nat) (st : Int), ax < v.shape.length → v.strides[ax]? = some st → 0 ≤ st →
      ∃ v', ((v.flip ax).bind fun w => w.transposeAxes (View.swapOrder v.shape.length p q)) = some v' ∧
        (v'.denote mem).Same (((v.denote mem).flip ax).transposeAxes (View.swapOrder v.shape.length p q)) := by
    intro ax st hax hst hst0
    obtain ⟨w, g1, g2, g3, g4, _⟩ := C07_flip_partial mem v hw ax st hax hst hst0
    have hperm := (C06_swap_order_perm v.shape.length p q hp hq).1
    obtain ⟨v', g5, _, g6⟩ := C06_transpose_axes mem w g2 (View.swapOrder v.shape.length p q) (by rw [g4]; exact hperm)
    refine ⟨v', by rw [g1]; exact g5, g6.trans ?_⟩
    -- the specification operations respect `Same`
    obtain ⟨_, hget⟩ := C06_swap_order_perm v.shape.length p q hp hq
    have hws : (w.denote mem).shape = v.shape := g4
    have hsl : (View.swapOrder v.shape.length p q).length = v.shape.length := by simp [View.swapOrder]
    refine ⟨by simp [Nd.transposeAxes, g3.1], fun idx hi => ?_⟩
    have hil : idx.length = v.shape.length := by rw [hi.length_eq]; simp [Nd.transposeAxes, hsl]
    show (w.denote mem).get _ = ((v.denote mem).flip ax).get _
    rw [hws]
    refine g3.2 _ ?_
    show InShape (w.denote mem).shape _
    rw [hws, inShape_iff_getD]
    refine ⟨by simp, fun j hj => ?_⟩
    rw [List.getD_eq_getElem _ _ (by simpa using hj)]
    simp only [List.getElem_map, List.getElem_range]
    have hidx : (View.swapOrder v.shape.length p q).idxOf j < v.shape.length := by
      have := List.idxOf_lt_length_iff.2 (hperm.mem_iff.2 (List.mem_range.2 hj))
      omega
    rw [inShape_iff_getD] at hi
    have := hi.2 ((View.swapOrder v.shape.length p q).idxOf j) (by simp [Nd.transposeAxes, hsl]; exact hidx)
    have e : ((w.denote mem).transposeAxes (View.swapOrder v.shape.length p q)).shape.getD ((View.swapOrder v.shape.length p q).idxOf j) 0
        = v.shape.getD j 0 := by
      show (List.map _ _).getD _ 0 = _
      rw [List.getD_eq_getElem _ _ (by simp [hsl]; exact hidx)]
      simp [hws]
    rw [e] at this
    exact this
  by_cases m0 : m = 0
  · rw [if_pos m0, m0]
    exact ⟨v, rfl, Nd.Same.refl _⟩
  rw [if_neg m0]
  by_cases m1 : m = 1
  · rw [if_pos m1, m1]
    obtain ⟨v', g1, g2⟩ := hturn q sq hq hsq hsq0
    exact ⟨v', g1, g2.trans (flip_swap_same (v.denote mem) hp hq hne)⟩
  rw [if_neg m1]
  by_cases m2 : m = 2
  · rw [if_pos m2, m2]
    obtain ⟨w, g1, g2, g3, g4, g5⟩ := C07_flip_partial mem v hw p sp hp hsp hsp0
    obtain ⟨v', g6, _, g7, _, _⟩ := C07_flip_partial mem w g2 q sq (by rw [g4]; exact hq)
      (by rw [g5 q (Ne.symm hne)]; exact hsq) hsq0
    refine ⟨v', by rw [g1]; exact g6, g7.trans (Nd.Same.trans ?_ (quarterTurn_two (v.denote mem) hp hq hne).symm)⟩
    refine ⟨g3.1, fun idx hi => ?_⟩
    show (w.denote mem).get _ = ((v.denote mem).flip p).get _
    have hws : (w.denote mem).shape = v.shape := g4
    rw [hws]
    refine g3.2 _ ?_
    show InShape (w.denote mem).shape _
    rw [hws]
    have hi : InShape v.shape idx := by rw [← hws]; exact hi
    refine inShape_modify (n := v.shape.getD q 0) hq ?_ (fun j hj => by omega)
    rw [Rumpy.set_getD_self hq]; exact hi
  · rw [if_neg m2]
    have m3 : m = 3 := by omega
    rw [m3]
    obtain ⟨v', g1, g2⟩ := hturn p sp hp hsp hsp0
    exact ⟨v', g1, g2.trans (flip_swap_three (v.denote mem) hp hq hne)⟩

example : ((View.fresh [2, 3] 1).pyRot90 (-1) 0 1).map (fun w => (w.shape, (indices w.shape).map w.addr))
    = some ([3, 2], [3, 0, 4, 1, 5, 2]) := by decide
example : ((View.fresh [2, 3] 1).pyRot90 5 0 (-1)).map (fun w => (w.shape, (indices w.shape).map w.addr))
    = some ([3, 2], [2, 5, 1, 4, 0, 3]) := by decide

/-- C43: four quarter turns give the array back, so `k` matters modulo four only. -/
theorem C43_four_turns (a : Nd α) (p q : Nat) (hp : p < a.shape.length) (hq : q < a.shape.length) (hne : p ≠ q) :
    (a.quarterTurns p q 4).Same a := by
  have hl2 : ((a.quarterTurn p q).quarterTurn p q).shape.length = a.shape.length := by simp [Nd.quarterTurn]
  have hlf : ((a.flip p).flip q).shape.length = a.shape.length := rfl
  show ((((a.quarterTurn p q).quarterTurn p q).quarterTurn p q).quarterTurn p q).Same a
  refine (quarterTurn_two _ (by omega) (by omega) hne).trans ?_
  have h2 := quarterTurn_two a hp hq hne
  have hsh : ((a.quarterTurn p q).quarterTurn p q).shape = a.shape := h2.1
  refine ⟨hsh, fun idx hi => ?_⟩
  have hi : InShape a.shape idx := by rw [← hsh]; exact hi
  have hip := (inShape_iff_getD.1 hi).2 p hp
  have hiq := (inShape_iff_getD.1 hi).2 q hq
  have hil := hi.length_eq
  show ((a.quarterTurn p q).quarterTurn p q).get (List.modify (List.modify idx q _) p _) = a.get idx
  have hin : InShape a.shape ((idx.modify q fun k => a.shape.getD q 0 - 1 - k).modify p fun k => a.shape.getD p 0 - 1 - k) := by
    refine inShape_modify (n := a.shape.getD p 0) hp ?_ (fun j hj => by omega)
    rw [Rumpy.set_getD_self hp]
    refine inShape_modify (n := a.shape.getD q 0) hq ?_ (fun j hj => by omega)
    rw [Rumpy.set_getD_self hq]; exact hi
  have e := h2.2 _ (by rw [hsh]; exact hin)
  show ((a.quarterTurn p q).quarterTurn p q).get ((idx.modify q fun k => ((a.quarterTurn p q).quarterTurn p q).shape.getD q 0 - 1 - k).modify p fun k => ((a.quarterTurn p q).quarterTurn p q).shape.getD p 0 - 1 - k) = _
  rw [hsh, e]
  show a.get _ = a.get _
  congr 1
  apply ext_getD
  · simp
  · intro j hj
    show (List.modify (List.modify (List.modify (List.modify idx q fun k => a.shape.getD q 0 - 1 - k) p fun k => a.shape.getD p 0 - 1 - k) q fun k => a.shape.getD q 0 - 1 - k) p fun k => a.shape.getD p 0 - 1 - k).getD j 0 = _
    by_cases e1 : p = j
    · subst e1
      rw [getD_modify_self (by simp; omega), getD_modify_ne (Ne.symm hne), getD_modify_self (by simp; omega), getD_modify_ne (Ne.symm hne)]
      omega
    · rw [getD_modify_ne e1]
      by_cases e2 : q = j
      · subst e2
        rw [getD_modify_self (by simp; omega), getD_modify_ne hne, getD_modify_self (by omega)]
        omega
      · rw [getD_modify_ne e2, getD_modify_ne e1, getD_modify_ne e2]

/-- C43 fails on a reversed axis: half a turn of a matrix whose rows were reversed reads outside the array. -/
theorem C43_rot90_counterexample :
    (((View.fresh [2, 2] 1).flip 0).bind fun w => w.pyRot90 2 0 1).map (fun w => (indices w.shape).map w.addr)
      = some [5, 4, 7, 6] ∧
    ((((View.fresh [2, 2] 1).denote id).flip 0).quarterTurns 0 1 2).toList = [1, 0, 3, 2] := by decide

end Props
