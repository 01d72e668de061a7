import Verif.Lemmas.Signal
import Verif.Props.Moments
import Mathlib.Analysis.SpecialFunctions.Complex.Arg
/-! # C79: unwrap, trim_zeros, angle and real_if_close -/

namespace Props
open Spec Rumpy

theorem resolveAxis_iff {ndim k : Nat} {a : Int} : resolveAxis a ndim = some k ↔ IsAxis ndim a k := by
  unfold resolveAxis IsAxis
  dsimp only
  by_cases ha : a < 0
  · rw [if_pos ha]
    split
    · simp only [reduceCtorEq, false_iff]; omega
    · rw [Option.some.injEq]; omega
  · rw [if_neg ha]
    split
    · simp only [reduceCtorEq, false_iff]; omega
    · rw [Option.some.injEq]; omega

/-! ### unwrap -/

section
variable {K : Type} [Field K] [LinearOrder K] [IsStrictOrderedRing K] [FloorRing K]

/-- Along every lane of the axis, in any layout, the result is the lane unwrapped with the given period and discontinuity, or with
a period of `2π` and half a period. It is an array of float64. -/
theorem C79_unwrap (twoPi : K) (dt : DType) (h : Held K) (hw : h.view.WF) (discont : Option K) (axis : Int) (period : Option K)
    (hp : 0 < period.getD twoPi) (ax : Nat) (hax : IsAxis h.view.shape.length axis ax) (hn : 2 ≤ h.view.shape.getD ax 0) :
    ∃ r nd, Rumpy.unwrap twoPi dt h discont axis period = .ok (.f64, r) ∧ r.Is nd ∧ nd.shape = h.view.shape ∧
      ∀ idx, InShape (h.view.shape.eraseIdx ax) idx →
        IsUnwrapped (period.getD twoPi) (discont.getD (period.getD twoPi / 2)) (h.view.shape.getD ax 0)
          (fun k => h.nd.get (idx.insertIdx ax k)) (fun k => nd.get (idx.insertIdx ax k)) := by
  have hlt := hax.1
  refine ⟨⟨h.view.shape, (indices h.view.shape).map (unwrapGet (period.getD twoPi) (discont.getD (period.getD twoPi / 2)) h.nd ax)⟩,
    ⟨h.view.shape, unwrapGet (period.getD twoPi) (discont.getD (period.getD twoPi / 2)) h.nd ax⟩, ?_, ⟨rfl, rfl⟩, rfl, ?_⟩
  · have hsrc : writes ((collectValues id (dt == .f64) h.mem h.view).zipIdx.map fun vi => (vi.2, vi.1))
        (List.replicate (Rumpy.sizeOf h.view.shape) (0 : K)) = h.nd.toList := by
      have e := writes_zipIdx (fun x : K => x) (collectValues id (dt == .f64) h.mem h.view) (List.replicate (Rumpy.sizeOf h.view.shape) 0)
        (by rw [collectValues_eq hw, List.map_id, List.length_replicate, Nd.length_toList, sizeOf_eq]; rfl)
      rw [e, collectValues_eq hw, List.map_id, List.map_id']
      rfl
    unfold Rumpy.unwrap
    dsimp only
    rw [if_neg (by omega), resolveAxis_iff.2 hax]
    dsimp only
    rw [if_neg (by omega), hsrc]
    congr 3
    exact unwrapLanes_eq _ _ h.nd hlt hn
  · intro idx hi
    have e : (fun k => unwrapGet (period.getD twoPi) (discont.getD (period.getD twoPi / 2)) h.nd ax (idx.insertIdx ax k)) =
        unwrapSeq (period.getD twoPi) (discont.getD (period.getD twoPi / 2)) (fun k => h.nd.get (idx.insertIdx ax k)) := by
      funext k
      exact unwrapGet_insert _ _ _ (by have := lane_length hlt hi; omega) k
    show IsUnwrapped _ _ _ _ (fun k => unwrapGet _ _ _ _ _)
    rw [e]
    exact unwrapSeq_is hp _ _ _

example : Rumpy.unwrap (K := ℚ) 6 .i64 (ratHeld [2, 4] [0, 3/4, 1/4, 3, 1, 2, 7/2, 0]) none 1 (some 1) =
    .ok (.f64, ⟨[2, 4], [0, -1/4, -3/4, -1, 1, 1, 1/2, 0]⟩) := by decide +kernel

/-- Along an axis with at most one element, and for an array without axes, nothing changes, and the dtype stays. -/
theorem C79_unwrap_short (twoPi : K) (dt : DType) (h : Held K) (hw : h.view.WF) (hi : 0 < h.view.item)
    (hal : ∀ s ∈ h.view.strides, (h.view.item : Int) ∣ s) (discont : Option K) (axis : Int) (period : Option K)
    (hs : h.view.shape = [] ∨ ∃ ax, IsAxis h.view.shape.length axis ax ∧ h.view.shape.getD ax 0 ≤ 1) :
    ∃ r, Rumpy.unwrap twoPi dt h discont axis period = .ok (dt, r) ∧ r.Is h.nd := by
  rcases hs with hs | ⟨ax, hax, hn⟩
  · refine ⟨⟨h.view.shape, h.view.addrs.map h.mem⟩, ?_, rfl, addrs_map hw h.mem⟩
    unfold Rumpy.unwrap
    dsimp only
    rw [if_pos (by rw [hs]; rfl)]
  · refine ⟨copyArr (dt == .f64 || dt == .i64) h.mem h.view 0, ?_, copyArr_eq _ _ hw (fun _ => hal) _⟩
    unfold Rumpy.unwrap
    dsimp only
    have := hax.1
    rw [if_neg (by omega), resolveAxis_iff.2 hax]
    dsimp only
    rw [if_pos hn]

/-- An axis that the array does not have is an error. -/
theorem C79_unwrap_axis (twoPi : K) (dt : DType) (h : Held K) (discont : Option K) (axis : Int) (period : Option K)
    (h0 : h.view.shape ≠ []) (hax : ¬ ∃ ax, IsAxis h.view.shape.length axis ax) :
    Rumpy.unwrap twoPi dt h discont axis period = .error := by
  unfold Rumpy.unwrap
  dsimp only
  rw [if_neg (by simpa using h0)]
  cases hr : resolveAxis axis h.view.shape.length with
  | none => rfl
  | some ax => exact absurd ⟨ax, resolveAxis_iff.1 hr⟩ hax

/-- The specification leaves no choice: there is one unwrapped sequence. -/
theorem C79_unwrap_unique {period : K} (hp : 0 < period) {discont : K} {n : Nat} {x y z : Nat → K}
    (hy : IsUnwrapped period discont n x y) (hz : IsUnwrapped period discont n x z) (k : Nat) (hk : k < n) : y k = z k :=
  unwrapped_unique hp hy hz k hk

example : IsUnwrapped (1 : ℚ) (1 / 2) 2 (fun k => if k = 0 then 0 else 3 / 4) (fun k => if k = 0 then 0 else -1 / 4) := by
  refine ⟨rfl, fun k hk => ?_, fun k hk => ?_⟩
  · obtain rfl | rfl : k = 0 ∨ k = 1 := by omega
    · exact ⟨0, by norm_num⟩
    · exact ⟨-1, by norm_num⟩
  · obtain rfl : k = 0 := by omega
    norm_num [abs_le, abs_of_pos]

/-- With the default discontinuity no two neighbours of the result are more than half a period apart. -/
theorem C79_unwrap_bounded (twoPi : K) (dt : DType) (h : Held K) (hw : h.view.WF) (axis : Int) (period : Option K)
    (hp : 0 < period.getD twoPi) (ax : Nat) (hax : IsAxis h.view.shape.length axis ax) (hn : 2 ≤ h.view.shape.getD ax 0) :
    ∃ r nd, Rumpy.unwrap twoPi dt h none axis period = .ok (.f64, r) ∧ r.Is nd ∧ nd.shape = h.view.shape ∧
      ∀ idx, InShape (h.view.shape.eraseIdx ax) idx → ∀ k, k + 1 < h.view.shape.getD ax 0 →
        |nd.get (idx.insertIdx ax (k + 1)) - nd.get (idx.insertIdx ax k)| ≤ period.getD twoPi / 2 := by
  obtain ⟨r, nd, h1, h2, h3, h4⟩ := C79_unwrap twoPi dt h hw none axis period hp ax hax hn
  refine ⟨r, nd, h1, h2, h3, fun idx hi k hk => ?_⟩
  have hu := (h4 idx hi).2.2 k hk
  simp only [Option.getD_none] at hu
  by_cases hd : |h.nd.get (idx.insertIdx ax (k + 1)) - h.nd.get (idx.insertIdx ax k)| ≤ period.getD twoPi / 2
  · rw [hu.1 hd]; exact hd
  · have := hu.2 (not_le.1 hd)
    exact abs_le.2 ⟨this.1, this.2.le⟩

/-- Unwrapping recovers a phase from its values modulo the period: if the samples `t` of a phase move by less than half a period
from one to the next, and the array holds them up to whole periods, exactly at the start of each lane, the result is `t`. -/
theorem C79_unwrap_recovers (twoPi : K) (dt : DType) (h : Held K) (hw : h.view.WF) (axis : Int) (period : Option K)
    (hp : 0 < period.getD twoPi) (ax : Nat) (hax : IsAxis h.view.shape.length axis ax) (hn : 2 ≤ h.view.shape.getD ax 0)
    (t : Nd K) (hs : t.shape = h.view.shape)
    (hmod : ∀ idx, InShape h.view.shape idx → ∃ m : Int, h.nd.get idx = t.get idx + m * period.getD twoPi)
    (hstart : ∀ idx, InShape (h.view.shape.eraseIdx ax) idx → h.nd.get (idx.insertIdx ax 0) = t.get (idx.insertIdx ax 0))
    (hsmooth : ∀ idx, InShape (h.view.shape.eraseIdx ax) idx → ∀ k, k + 1 < h.view.shape.getD ax 0 →
      |t.get (idx.insertIdx ax (k + 1)) - t.get (idx.insertIdx ax k)| < period.getD twoPi / 2) :
    ∃ r, Rumpy.unwrap twoPi dt h none axis period = .ok (.f64, r) ∧ r.Is t := by
  obtain ⟨r, nd, h1, h2, h3, h4⟩ := C79_unwrap twoPi dt h hw none axis period hp ax hax hn
  obtain ⟨r', nd', h1', h2', h3', h4'⟩ := C79_unwrap_bounded twoPi dt h hw axis period hp ax hax hn
  rw [h1] at h1'
  obtain rfl : r = r' := by
    injection h1' with e
    exact (Prod.mk.inj e).2
  refine ⟨r, h1, h2.congr ⟨h3.trans hs.symm, fun idx hi => ?_⟩⟩
  rw [h3] at hi
  have hsame : ∀ i, InShape h.view.shape i → nd'.get i = nd.get i := by
    intro i hin
    have e1 := h2.at? (by rw [h3]; exact hin)
    have e2 := h2'.at? (by rw [h3']; exact hin)
    rw [e1] at e2
    exact (Option.some.inj e2).symm
  obtain ⟨hj, hlt, he⟩ := lane_of_index hax.1 hi
  have key : ∀ k, k < h.view.shape.getD ax 0 →
      nd.get ((idx.eraseIdx ax).insertIdx ax k) = t.get ((idx.eraseIdx ax).insertIdx ax k) := by
    intro k
    induction k with
    | zero => intro _; rw [← hstart _ hj]; exact (h4 _ hj).1
    | succ k ih =>
      intro hk
      have ih := ih (by omega)
      obtain ⟨m, hm⟩ := (h4 _ hj).2.1 (k + 1) hk
      obtain ⟨m', hm'⟩ := hmod _ (inShape_insertIdx hax.1 hj hk)
      have hb := h4' _ hj k hk
      rw [hsame _ (inShape_insertIdx hax.1 hj hk), hsame _ (inShape_insertIdx hax.1 hj (by omega)), ih] at hb
      have hs' := hsmooth _ hj k hk
      rw [abs_le] at hb
      rw [abs_lt] at hs'
      simp only at hm
      refine multiple_unique hp (m := m + m') (by rw [hm, hm']; push_cast; ring) ?_
      rw [abs_lt]
      constructor <;> linarith
  have := key _ hlt
  rwa [he] at this

example : Rumpy.unwrap (K := ℚ) 6 .f64 (ratHeld [5] [1/4, 5/8, 0, 3/8, 1/4]) none 0 (some 1) =
    .ok (.f64, ⟨[5], [1/4, 5/8, 1, 11/8, 5/4]⟩) := by decide +kernel

/-- A lane whose jumps are at most `discont` is not changed. -/
theorem C79_unwrap_smooth {period : K} (hp : 0 < period) {discont : K} {n : Nat} {x y : Nat → K} (hy : IsUnwrapped period discont n x y)
    (hx : ∀ k, k + 1 < n → |x (k + 1) - x k| ≤ discont) (k : Nat) (hk : k < n) : y k = x k :=
  unwrapped_unique hp hy (z := x) ⟨rfl, fun k _ => ⟨0, by simp⟩,
    fun k hk => ⟨fun _ => rfl, fun h => absurd (hx k hk) (not_le.2 h)⟩⟩ k hk

/-- The part of NumPy's rule that holds: the result is NumPy's if no jump is exactly `discont`, unless that is at most half a
period, and no positive jump is an odd multiple of half a period beyond `discont`. -/
theorem C79_unwrap_numpy_partial {period : K} (hp : 0 < period) {discont : K} {n : Nat} {x y : Nat → K}
    (hy : IsUnwrapped period discont n x y)
    (h1 : ∀ k, k + 1 < n → |x (k + 1) - x k| = discont → |x (k + 1) - x k| ≤ period / 2)
    (h2 : ∀ k, k + 1 < n → discont < |x (k + 1) - x k| → 0 < x (k + 1) - x k → ∀ m : Int, x (k + 1) - x k ≠ (m + 1 / 2) * period) :
    NumpyUnwrapped period discont n x y := by
  refine ⟨hy.1, hy.2.1, fun k hk => ⟨fun h => (hy.2.2 k hk).1 h.le, fun h => ?_⟩⟩
  rcases h.eq_or_lt with h | h
  · have e := (hy.2.2 k hk).1 h.ge
    rw [e]
    exact ⟨h1 k hk h.symm, fun _ => Iff.rfl⟩
  · have e := (hy.2.2 k hk).2 h
    refine ⟨abs_le.2 ⟨e.1, e.2.le⟩, fun he => ?_⟩
    have hneg : y (k + 1) - y k = -(period / 2) := by
      rcases abs_choice (y (k + 1) - y k) with ha | ha
      · rw [ha] at he; linarith [e.2]
      · rw [ha] at he; linarith
    obtain ⟨m, hm⟩ := hy.2.1 k (by omega)
    obtain ⟨m', hm'⟩ := hy.2.1 (k + 1) hk
    constructor
    · intro hpos; linarith
    · intro hpos
      refine absurd ?_ (h2 k hk h hpos (m - m' - 1))
      push_cast
      linear_combination hneg - hm' + hm

end

/-- At a positive jump of three halves of a period NumPy moves up by half a period; the code moves down. -/
theorem C79_unwrap_counterexample :
    Rumpy.unwrap (K := ℚ) 6 .f64 (ratHeld [2] [0, 3/2]) none 0 (some 1) = .ok (.f64, ⟨[2], [0, -1/2]⟩) ∧
      NumpyUnwrapped (1 : ℚ) (1 / 2) 2 (fun k => if k = 0 then 0 else 3 / 2) (fun k => if k = 0 then 0 else 1 / 2) ∧
      ¬ NumpyUnwrapped (1 : ℚ) (1 / 2) 2 (fun k => if k = 0 then 0 else 3 / 2) (fun k => if k = 0 then 0 else -1 / 2) := by
  refine ⟨by decide +kernel, ⟨rfl, fun k hk => ?_, fun k hk => ?_⟩, fun hc => ?_⟩
  · obtain rfl | rfl : k = 0 ∨ k = 1 := by omega
    · exact ⟨0, by norm_num⟩
    · exact ⟨-1, by norm_num⟩
  · obtain rfl : k = 0 := by omega
    norm_num [abs_of_pos]
  · have h := ((hc.2.2 0 (by decide)).2 (by norm_num [abs_of_pos])).2
    norm_num [abs_of_neg, abs_of_pos] at h

/-! ### trim_zeros -/

/-- What holds of `trim_zeros`: of a vector whose stride is not negative, or whose front is kept, the result is the vector without
the leading zeros, the trailing zeros, or both. -/
theorem C79_trim_zeros_partial {α : Type} (typed eight : Bool) (isZero : α → Bool) (h : Held α) (hw : h.view.WF)
    (hal : eight = true → ∀ s ∈ h.view.strides, (h.view.item : Int) ∣ s) (n : Nat) (hs : h.view.shape = [n]) (trim : List Char) (zero : α)
    (hst : 0 ≤ h.view.strides.getD 0 0 ∨ ¬ ('f' ∈ trim ∨ 'F' ∈ trim)) :
    ∃ r, trimZerosArr typed eight (fun x => !isZero x) h trim zero = .ok r ∧
      r.data = trimmed isZero (decide ('f' ∈ trim ∨ 'F' ∈ trim)) (decide ('b' ∈ trim ∨ 'B' ∈ trim)) h.nd.toList ∧
      r.shape = [r.data.length] := by
  have hsz : Rumpy.sizeOf h.view.shape = n := by rw [sizeOf_eq, hs]; simp [size]
  have hlen : h.nd.toList.length = n := by rw [Nd.length_toList]; show size h.view.shape = n; rw [hs]; simp [size]
  have hv : trimValues typed h = h.nd.toList := by
    unfold trimValues
    rw [collectValues_eq hw, List.map_id]
    rfl
  have ef : (trim.contains 'f' || trim.contains 'F') = decide ('f' ∈ trim ∨ 'F' ∈ trim) := by simp
  have eb : (trim.contains 'b' || trim.contains 'B') = decide ('b' ∈ trim ∨ 'B' ∈ trim) := by simp
  obtain ⟨hb, ht⟩ := trimBounds_eq isZero trim h.nd.toList
  rw [ef, eb] at ht
  unfold trimZerosArr
  rw [if_neg (by rw [hs]; simp)]
  by_cases h0 : n = 0
  · rw [if_pos (by rw [hsz]; exact h0)]
    refine ⟨_, rfl, ?_, by rw [hs, h0]; rfl⟩
    have hnil : h.nd.toList = [] := List.length_eq_zero_iff.1 (hlen.trans h0)
    rw [hnil]
    unfold trimmed
    dsimp only
    split <;> split <;> simp
  · rw [if_neg (by rw [hsz]; exact h0)]
    dsimp only
    rw [hv]
    have hfirst : ¬ ('f' ∈ trim ∨ 'F' ∈ trim) → (trimBounds (fun x => !isZero x) trim h.nd.toList).1 = 0 := by
      intro hf
      unfold trimBounds
      dsimp only
      rw [ef, if_neg (by simpa using hf)]
    generalize hbd : trimBounds (fun x => !isZero x) trim h.nd.toList = b at *
    split
    · next hle =>
      refine ⟨_, rfl, ?_, rfl⟩
      rw [← ht, Nat.sub_eq_zero_of_le hle]
      rfl
    · next hlt =>
      have hslen : View.sliceLen (b.1 : Int) b.2 1 = b.2 - b.1 := by
        have h := sliceLen_spec (start := (b.1 : Int)) (stop := b.2) (step := 1) (by decide)
        refine h.unique fun k => ?_
        rw [if_pos (by decide)]; omega
      have hl := hw.len
      rw [hs] at hl
      obtain ⟨st, hst'⟩ := List.length_eq_one_iff.1 hl
      obtain ⟨w, h1, h2, h3, h4, h5, h6, _⟩ := sliceAxis_denote h.mem (v := h.view) (axis := 0) (len := n) (st := st)
        (start := b.1) (stop := b.2) (step := 1) (by decide) (by rw [hs]; rfl) (by rw [hst']; rfl)
        (by rcases hst with hst | hst
            · left; rw [hst'] at hst; exact hst
            · right; rw [hfirst hst]; rfl) (fun k _ => by omega)
      rw [hslen, hs] at h2
      rw [h1]
      dsimp only
      have his := copyArr_eq eight h.mem (h5 hw.len) (fun he s hsm => by
        rw [h4]
        rw [h3, hst', Int.mul_one] at hsm
        exact hal he s (by rw [hst']; exact hsm)) zero
      refine ⟨_, rfl, ?_, ?_⟩
      · rw [his.2, ← ht, toList_one (n := b.2 - b.1) h2]
        apply List.ext_getElem?
        intro k
        by_cases hk : k < b.2 - b.1
        · have e := h6.2 [k] (by show InShape w.shape [k]; rw [h2]; exact ⟨hk, trivial⟩)
          rw [List.getElem?_take_of_lt hk, List.getElem?_drop, List.getElem?_map, List.getElem?_range hk, Option.map_some, e,
            toList_one (nd := h.nd) (n := n) hs, List.getElem?_map, List.getElem?_range (by omega), Option.map_some]
          show some (h.nd.get (List.modify [k] 0 _)) = _
          simp only [List.modify_zero_cons]
          congr 3
          omega
        · rw [List.getElem?_eq_none (by simp; omega), List.getElem?_eq_none (by simp; omega)]
      · rw [his.1, his.2, Nd.length_toList]
        show w.shape = [size w.shape]
        rw [h2]; simp [size]

example : trimZerosArr true true (fun x : ℚ => !decide (x = 0)) (ratHeld [6] [0, 0, 1, 0, 2, 0]) "fb".toList 0 = .ok ⟨[3], [1, 0, 2]⟩ := by
  decide +kernel

/-- An array with another number of axes is an error. -/
theorem C79_trim_zeros_ndim {α : Type} (typed eight : Bool) (nonzero : α → Bool) (h : Held α) (hs : h.view.shape.length ≠ 1)
    (trim : List Char) (zero : α) : trimZerosArr typed eight nonzero h trim zero = .error := by
  unfold trimZerosArr
  rw [if_pos hs]

/-- The reversed array `[1, 2, 0][::-1]`, whose elements are 0, 2, 1, is trimmed to a value beyond the end of the buffer, here 7,
followed by 0. Of a complex array, an imaginary number at the front is taken for zero. -/
theorem C79_trim_zeros_counterexample :
    (let h : Held ℚ := ⟨fun p => if p = 0 then 1 else if p = 8 then 2 else if p = 16 then 0 else 7, ⟨16, [3], [-8], 8, false, false⟩⟩
     h.nd.toList = [0, 2, 1] ∧ trimZerosArr true true (fun x => !decide (x = 0)) h "fb".toList 0 = .ok ⟨[2], [7, 0]⟩) ∧
    (let h : Held (Cpx ℚ) := Held.of ⟨[2], [⟨0, 1⟩, ⟨1, 0⟩]⟩ 16 ⟨0, 0⟩
     trimmed (fun z : Cpx ℚ => decide (z = ⟨0, 0⟩)) true true h.nd.toList = [⟨0, 1⟩, ⟨1, 0⟩] ∧
     trimZerosArr false false (fun z : Cpx ℚ => !decide (z.re = 0)) h "fb".toList ⟨0, 0⟩ = .ok ⟨[1], [⟨1, 0⟩]⟩) := by
  decide +kernel

/-! ### angle -/

/-- The angles of complex numbers, given that `atan2` is the argument: each lies in `(-π, π]` and gives the number back with its
absolute value. In degrees, they are converted. -/
theorem C79_angle (atan2 : ℝ → ℝ → ℝ) (ha : ∀ x y, atan2 y x = Complex.arg ⟨x, y⟩) (degrees : ℝ → ℝ) (h : Held (Cpx ℝ)) (hw : h.view.WF)
    (deg : Bool) :
    ∃ θ : List Nat → ℝ, (angleComplex atan2 degrees h deg).Is ⟨h.view.shape, fun idx => if deg then degrees (θ idx) else θ idx⟩ ∧
      ∀ idx, InShape h.view.shape idx → -Real.pi < θ idx ∧ θ idx ≤ Real.pi ∧
        (‖(⟨(h.nd.get idx).re, (h.nd.get idx).im⟩ : ℂ)‖ : ℂ) * Complex.exp (θ idx * Complex.I) = ⟨(h.nd.get idx).re, (h.nd.get idx).im⟩ := by
  refine ⟨fun idx => Complex.arg ⟨(h.nd.get idx).re, (h.nd.get idx).im⟩, ⟨rfl, ?_⟩, fun idx _ => ?_⟩
  · unfold angleComplex
    dsimp only
    rw [addrs_map hw]
    unfold Nd.toList
    rw [List.map_map]
    apply List.map_congr_left
    intro idx _
    simp only [Function.comp_apply, ha]
    rfl
  · exact ⟨(Complex.arg_mem_Ioc _).1, (Complex.arg_mem_Ioc _).2, Complex.norm_mul_exp_arg_mul_I _⟩

/-- The angle of a real number is that of the number as a complex one. Missing: NaN, `C79_angle_counterexample`. -/
theorem C79_angle_real_partial (degrees : ℝ → ℝ) (h : Held (Option ℝ)) (hw : h.view.WF) (deg : Bool) (x : List Nat → ℝ)
    (hx : ∀ idx, InShape h.view.shape idx → h.nd.get idx = some (x idx)) :
    (angleReal Real.pi degrees h deg).Is
      ⟨h.view.shape, fun idx => some (if deg then degrees (Complex.arg (x idx)) else Complex.arg (x idx))⟩ := by
  refine ⟨rfl, ?_⟩
  unfold angleReal
  dsimp only
  rw [addrs_map hw]
  unfold Nd.toList
  rw [List.map_map]
  apply List.map_congr_left
  intro idx hi
  have e : (h.view.denote h.mem).get idx = some (x idx) := hx idx (mem_indices.1 hi)
  simp only [Function.comp_apply, e]
  by_cases hneg : x idx < 0
  · simp only [hneg, decide_true, if_true, Complex.arg_ofReal_of_neg hneg]
  · simp only [hneg, decide_false, Bool.false_eq_true, if_false, Complex.arg_ofReal_of_nonneg (not_lt.1 hneg)]

example : angleReal (K := ℚ) 3 id (Held.of ⟨[3], [some 2, some (-1), some 0]⟩ 8 none) false = ⟨[3], [some 0, some 3, some 0]⟩ := by
  decide +kernel

/-- The angle of NaN is zero, where NumPy gives NaN. -/
theorem C79_angle_counterexample :
    angleReal (K := ℚ) 3 id (Held.of ⟨[1], [none]⟩ 8 none) false = ⟨[1], [some 0]⟩ := by decide +kernel

/-! ### real_if_close -/

/-- What holds of `real_if_close`: for a tolerance above one, if no imaginary part is NaN or exactly at the limit, the real parts
are returned if every imaginary part is below `tol` times the machine epsilon, and the argument otherwise. -/
theorem C79_real_if_close_partial {K : Type} [Field K] [LinearOrder K] (eps tol : K) (h : Held (Cpx (Option K))) (hw : h.view.WF)
    (im : List Nat → K) (him : ∀ idx, InShape h.view.shape idx → (h.nd.get idx).im = some (im idx) ∧ |im idx| ≠ tol * eps) :
    ((∀ idx, InShape h.view.shape idx → |im idx| < tol * eps) →
      ∃ r, realIfClose eps tol h = .inl r ∧ r.Is ⟨h.view.shape, fun idx => (h.nd.get idx).re⟩) ∧
    ((∃ idx, InShape h.view.shape idx ∧ ¬ |im idx| < tol * eps) → realIfClose eps tol h = .inr h) := by
  have e1 : h.view.addrs.map h.mem = h.nd.toList := addrs_map hw h.mem
  constructor
  · intro hall
    refine ⟨⟨h.view.shape, h.nd.toList.map fun z => z.re⟩, ?_, rfl, ?_⟩
    · unfold realIfClose
      dsimp only
      rw [e1, if_neg]
      rw [List.any_eq_true]
      rintro ⟨z, hz, hf⟩
      unfold Nd.toList at hz
      obtain ⟨idx, hi, rfl⟩ := List.mem_map.1 hz
      have hi := mem_indices.1 hi
      rw [(him idx hi).1] at hf
      simp only [farFromReal, decide_eq_true_eq] at hf
      exact absurd (hall idx hi) (not_lt.2 hf.le)
    · unfold Nd.toList
      rw [List.map_map]
      rfl
  · rintro ⟨idx, hi, hn⟩
    unfold realIfClose
    dsimp only
    rw [e1, if_pos]
    rw [List.any_eq_true]
    refine ⟨h.nd.get idx, by unfold Nd.toList; exact List.mem_map_of_mem (mem_indices.2 hi), ?_⟩
    rw [(him idx hi).1]
    simp only [farFromReal, decide_eq_true_eq]
    exact lt_of_le_of_ne (not_lt.1 hn) (him idx hi).2.symm

example : (realIfClose (K := ℚ) (1 / 1000) 100 (Held.of ⟨[2], [⟨some 3, some 0⟩, ⟨some 4, some (1 / 100)⟩]⟩ 16 ⟨none, none⟩)).getLeft? =
    some ⟨[2], [some 3, some 4]⟩ := by decide +kernel

/-- A number whose imaginary part is NaN is taken for real. A tolerance of at most one is a multiple of the machine epsilon too,
where in NumPy it is absolute: with tolerance one half, `3 + 0.25i` is not converted. -/
theorem C79_real_if_close_counterexample :
    (realIfClose (K := ℚ) (1 / 1000) 100 (Held.of ⟨[1], [⟨some 3, none⟩]⟩ 16 ⟨none, none⟩)).getLeft? = some ⟨[1], [some 3]⟩ ∧
    (realIfClose (K := ℚ) (1 / 1000) (1 / 2) (Held.of ⟨[1], [⟨some 3, some (1 / 4)⟩]⟩ 16 ⟨none, none⟩)).isRight = true := by
  decide +kernel

end Props
