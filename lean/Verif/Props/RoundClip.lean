import Verif.Lemmas.RoundClip
import Verif.Props.NestedList
import Verif.Props.Elementwise

/-!
# C81: `round` and `clip`
-/

namespace Props
open Spec Rumpy

/-- C81.  `round` of a float array of any layout takes every element to a nearest number with `d`
decimals (for negative `d`, a nearest multiple of `10^(-d)`), away from zero when two are equally
near. -/
theorem C81_round_float {h : Held PyNum} (hw : h.view.WF) (d : Int) (v : List Nat → Rat)
    (hv : ∀ idx, InShape h.view.shape idx → h.nd.get idx = .float (v idx)) :
    ∃ (r : Arr PyNum) (g : List Nat → Rat), roundOf .float d h = some (.inr r) ∧ r.Is ⟨h.view.shape, fun idx => .float (g idx)⟩ ∧
      ∀ idx, InShape h.view.shape idx → IsRounded d (v idx) (g idx) ∧ (IsTie d (v idx) → |v idx| < |g idx|) := by
  refine ⟨_, fun idx => roundTo d (v idx), rfl, ?_, fun idx _ => ⟨roundTo_rounded d _, ?_⟩⟩
  · rw [mapLoop_eq _ _ hw]
    refine ⟨rfl, List.map_congr_left fun idx hi => ?_⟩
    have : h.mem (h.view.addr idx) = .float (v idx) := hv idx (mem_indices.mp hi)
    rw [this]
    rfl
  · rintro ⟨m, hm⟩
    have hp := pow10_pos d
    refine lt_of_mul_lt_mul_right ?_ hp.le
    have e : ∀ x : Rat, |x| * 10 ^ d = |x * 10 ^ d| := fun x => by rw [abs_mul, abs_of_pos hp]
    rw [e, e, roundTo_mul, hm]
    unfold roundAway
    split
    · next h0 =>
      have h1 : ⌊(m : Rat) + 1 / 2 + 1 / 2⌋ = m + 1 := by
        rw [show (m : Rat) + 1 / 2 + 1 / 2 = ((m + 1 : Int) : Rat) by push_cast; ring]
        exact Int.floor_intCast _
      rw [h1, abs_of_nonneg h0, abs_of_nonneg (by push_cast; linarith)]
      push_cast
      linarith
    · next h0 =>
      have h1 : ⌈(m : Rat) + 1 / 2 - 1 / 2⌉ = m := by
        rw [show (m : Rat) + 1 / 2 - 1 / 2 = ((m : Int) : Rat) by ring]
        exact Int.ceil_intCast _
      push Not at h0
      rw [h1, abs_of_neg h0, abs_of_neg (by linarith)]
      linarith

example : (roundOf .float 1 (Held.of ⟨[3], [.float (123 / 100), .float (-126 / 100), .float (1 / 4)]⟩ 8 (.float 0))).map (fun r => r.getRight?.map (·.data)) =
    some (some [.float (12 / 10), .float (-13 / 10), .float (3 / 10)]) := by
  decide +kernel

/-- C81.  When no two numbers with `d` decimals are equally near, the element that `round` gives is
the one NumPy gives.  Missing: the halfway cases (`C81_round_counterexample`). -/
theorem C81_round_numpy_partial (d : Int) {x : Rat} (ht : ¬ IsTie d x) : NumpyRounded d x (roundTo d x) ∧ ∀ y, NumpyRounded d x y → y = roundTo d x := by
  refine ⟨⟨roundTo_rounded d x, fun h => absurd h ht⟩, fun y hy => ?_⟩
  obtain ⟨⟨m, hm⟩, h1⟩ := isRounded_iff.mp hy.1
  obtain ⟨⟨n, hn⟩, h2⟩ := isRounded_iff.mp (roundTo_rounded d x)
  have hp := pow10_pos d
  refine mul_right_cancel₀ hp.ne' ?_
  rw [hm, hn]
  rw [hm] at h1
  rw [hn] at h2
  have key : ∀ k : Int, x * 10 ^ d - k ≠ 1 / 2 := fun k e => ht ⟨k, by linarith⟩
  have key2 : ∀ k : Int, x * 10 ^ d - k ≠ -(1 / 2) := fun k e => ht ⟨k - 1, by push_cast; linarith⟩
  rw [abs_le] at h1 h2
  have a1 := lt_of_le_of_ne h1.1 (key2 m).symm
  have a2 := lt_of_le_of_ne h1.2 (key m)
  have b1 := lt_of_le_of_ne h2.1 (key2 n).symm
  have b2 := lt_of_le_of_ne h2.2 (key n)
  have c1 : ((m - n : Int) : Rat) < 1 := by push_cast; linarith
  have c2 : ((n - m : Int) : Rat) < 1 := by push_cast; linarith
  have d1 : m - n < 1 := by exact_mod_cast c1
  have d2 : n - m < 1 := by exact_mod_cast c2
  congr 1
  omega

/-- C81.  NumPy rounds one half to 0 and 2.5 to 2; here they become 1 and 3. -/
theorem C81_round_counterexample :
    (roundOf .float 0 (Held.of ⟨[2], [.float (1 / 2), .float (5 / 2)]⟩ 8 (.float 0))).map (fun r => r.getRight?.map (·.data)) =
      some (some [.float 1, .float 3]) ∧
    ¬ NumpyRounded 0 (1 / 2) 1 ∧ NumpyRounded 0 (1 / 2) 0 ∧ ¬ NumpyRounded 0 (5 / 2) 3 ∧ NumpyRounded 0 (5 / 2) 2 := by
  refine ⟨by decide +kernel, ?_, ⟨?_, fun _ => ⟨0, by norm_num⟩⟩, ?_, ⟨?_, fun _ => ⟨1, by norm_num⟩⟩⟩
  · rintro ⟨_, h⟩
    obtain ⟨m, hm⟩ := h ⟨0, by norm_num⟩
    rw [zpow_zero, mul_one] at hm
    have : (1 : Int) = 2 * m := by exact_mod_cast hm
    omega
  · exact isRounded_iff.mpr ⟨⟨0, by norm_num⟩, by norm_num [abs_le]⟩
  · rintro ⟨_, h⟩
    obtain ⟨m, hm⟩ := h ⟨2, by norm_num⟩
    rw [zpow_zero, mul_one] at hm
    have : (3 : Int) = 2 * m := by exact_mod_cast hm
    omega
  · exact isRounded_iff.mpr ⟨⟨2, by norm_num⟩, by norm_num [abs_le]⟩

/-- C81.  Rounding twice is rounding once; it keeps order, and the sign does not matter. -/
theorem C81_round_laws (d : Int) (x y : Rat) :
    roundTo d (roundTo d x) = roundTo d x ∧ (x ≤ y → roundTo d x ≤ roundTo d y) ∧ roundTo d (-x) = -roundTo d x := by
  have hp := pow10_pos d
  refine ⟨?_, fun h => ?_, ?_⟩
  · refine mul_right_cancel₀ hp.ne' ?_
    rw [roundTo_mul, roundTo_mul, roundAway_int]
  · refine le_of_mul_le_mul_right ?_ hp
    rw [roundTo_mul, roundTo_mul]
    exact_mod_cast roundAway_mono (mul_le_mul_of_nonneg_right h hp.le)
  · refine mul_right_cancel₀ hp.ne' ?_
    rw [neg_mul, roundTo_mul, roundTo_mul, neg_mul, roundAway_neg]
    push_cast
    rfl

/-- C81.  `round` of an integer array (other than `int8`) to no or some decimals is the array
itself, sharing its memory. -/
theorem C81_round_int_same (signed : Bool) (bits : Nat) (h8 : ¬ (signed ∧ bits = 8)) {d : Int} (hd : 0 ≤ d) (h : Held PyNum) :
    roundOf (.int signed bits) d h = some (.inl h) := by
  unfold roundOf
  dsimp only
  rw [if_neg h8, if_pos hd]

/-- C81.  `round` of an integer array to tens, hundreds and so on, when that power of ten is a number
of the dtype, takes every element to the next multiple towards zero.  This is the nearest one when
the rest is at most half the power.  Missing: larger rests (`C81_round_int_counterexample`). -/
theorem C81_round_int_partial (signed : Bool) {bits : Nat} (hb : 0 < bits) (h8 : ¬ (signed ∧ bits = 8)) {k : Nat} (hk : 0 < k)
    (hfit : InIntRange signed bits (10 ^ k)) {h : Held PyNum} (hw : h.view.WF) (v : List Nat → Int)
    (hv : ∀ idx, InShape h.view.shape idx → h.nd.get idx = .int (v idx)) :
    ∃ (r : Arr PyNum) (g : List Nat → Int), roundOf (.int signed bits) (-k) h = some (.inr r) ∧ r.Is ⟨h.view.shape, fun idx => .int (g idx)⟩ ∧
      ∀ idx, InShape h.view.shape idx → IsDecimal (-k) (g idx : Int) ∧ (0 ≤ v idx → g idx ≤ v idx ∧ v idx < g idx + 10 ^ k) ∧
        (v idx ≤ 0 → v idx ≤ g idx ∧ g idx < v idx + 10 ^ k) ∧
        (2 * |v idx - g idx| ≤ 10 ^ k → IsRounded (-k) (v idx : Int) (g idx : Int)) := by
  have hs : roundScale signed bits (-k) = 10 ^ k := by
    unfold roundScale
    rw [neg_neg, Int.toNat_natCast]
    exact wrapInt_id hb hfit
  have hpos : (0 : Int) < 10 ^ k := by positivity
  refine ⟨mapLoop (fun x => .int (truncTo (roundScale signed bits (-k)) (loadInt x))) h.mem h.view (.int 0),
    fun idx => truncTo (10 ^ k) (v idx), ?_, ?_, fun idx _ => ?_⟩
  · unfold roundOf
    dsimp only
    rw [if_neg h8, if_neg (by omega), if_neg (by rw [hs]; exact fun e => hpos.ne' e.2)]
  · rw [mapLoop_eq _ _ hw, hs]
    refine ⟨rfl, List.map_congr_left fun idx hi => ?_⟩
    have : h.mem (h.view.addr idx) = .int (v idx) := hv idx (mem_indices.mp hi)
    rw [this]
    rfl
  · dsimp only
    generalize v idx = x
    unfold truncTo
    have e1 : x.tdiv (10 ^ k) * 10 ^ k + x.tmod (10 ^ k) = x := Int.tdiv_mul_add_tmod x (10 ^ k)
    have ez : ((10 : Rat) ^ (-(k : Int))) = 1 / 10 ^ k := by rw [zpow_neg, zpow_natCast, one_div]
    have hposq : (0 : Rat) < 10 ^ k := by positivity
    have hdec : IsDecimal (-k) ((x.tdiv (10 ^ k) * 10 ^ k : Int) : Rat) := by
      refine ⟨x.tdiv (10 ^ k), ?_⟩
      rw [ez]
      push_cast
      field_simp
    refine ⟨hdec, fun h0 => ?_, fun h0 => ?_, fun hr => ?_⟩
    · have h1 := Int.tmod_nonneg (10 ^ k) h0
      have h2 := Int.tmod_lt_of_pos x hpos
      constructor <;> omega
    · have h1 : 0 ≤ (-x).tmod (10 ^ k) := Int.tmod_nonneg (10 ^ k) (by omega)
      have h2 := Int.tmod_lt_of_pos (-x) hpos
      rw [Int.neg_tmod] at h1 h2
      constructor <;> omega
    · refine isRounded_iff.mpr ⟨hdec, ?_⟩
      rw [← abs_scale, ez]
      have hr' : (2 : Rat) * |(x : Rat) - (x.tdiv (10 ^ k) * 10 ^ k : Int)| ≤ 10 ^ k := by exact_mod_cast hr
      rw [mul_one_div, div_le_iff₀ hposq]
      linarith

example : InIntRange false 8 (10 ^ 1) ∧
    (roundOf (.int false 8) (-1) (Held.of ⟨[3], [.int 13, .int 20, .int 25]⟩ 1 (.int 0))).map (fun r => r.getRight?.map (·.data)) =
      some (some [.int 10, .int 20, .int 20]) := by
  refine ⟨by decide, by decide +kernel⟩

/-- C81.  17 rounded to tens is 10, except for `int8`, where it is 20.  In `uint8` the power 1000
becomes 232, and `10^8` becomes zero, which panics. -/
theorem C81_round_int_counterexample :
    (roundOf (.int true 64) (-1) (Held.of ⟨[1], [.int 17]⟩ 8 (.int 0))).map (fun r => r.getRight?.map (·.data)) = some (some [.int 10]) ∧
    ¬ IsRounded (-1) 17 10 ∧
    (roundOf (.int true 8) (-1) (Held.of ⟨[1], [.int 17]⟩ 1 (.int 0))).map (fun r => r.getRight?.map (·.data)) = some (some [.int 20]) ∧
    (roundOf (.int false 8) (-3) (Held.of ⟨[1], [.int 250]⟩ 1 (.int 0))).map (fun r => r.getRight?.map (·.data)) = some (some [.int 232]) ∧
    (roundOf (.int false 8) (-8) (Held.of ⟨[1], [.int 250]⟩ 1 (.int 0))).isNone := by
  refine ⟨by decide +kernel, ?_, by decide +kernel, by decide +kernel, by decide +kernel⟩
  intro h
  have := (isRounded_iff.mp h).2
  norm_num [abs_le] at this

/-- C81.  `round` of a complex array is zero everywhere. -/
theorem C81_round_complex {h : Held PyNum} (hw : h.view.WF) (d : Int) (hv : ∀ idx, InShape h.view.shape idx → ∃ re im, h.nd.get idx = .complex re im) :
    ∃ r, roundOf .complex d h = some (.inr r) ∧ r.Is ⟨h.view.shape, fun _ => .complex 0 0⟩ := by
  refine ⟨_, rfl, ?_⟩
  rw [mapUnaryFallback_eq _ _ hw]
  refine ⟨rfl, List.map_congr_left fun idx hi => ?_⟩
  obtain ⟨re, im, e⟩ := hv idx (mem_indices.mp hi)
  have : h.mem (h.view.addr idx) = .complex re im := e
  rw [this]
  have e0 : roundTo d (loadF64 (.complex re im)) = 0 := by
    show roundTo d 0 = 0
    unfold roundTo
    rw [zero_mul, show roundAway 0 = 0 from by simpa using roundAway_int 0]
    simp
  rw [e0]
  rfl

/-- C81.  `round` and `clip` of `1 + 2i` are 0. -/
theorem C81_complex_counterexample :
    (roundOf .complex 0 (Held.of ⟨[1], [.complex 1 2]⟩ 16 (.complex 0 0))).map (fun r => r.getRight?.map (·.data)) =
      some (some [.complex 0 0]) ∧
    (clipWith .complex (some 0) none (Held.of ⟨[1], [.complex 1 2]⟩ 16 (.complex 0 0))).data = [.complex 0 0] := by
  refine ⟨?_, ?_⟩ <;> decide +kernel

theorem clipValue_eq (lo hi : Option Rat) (x : Rat) : clipValue lo hi x = clipped lo hi x := by
  unfold clipValue clipped
  have h1 : ∀ x m : Rat, (if x < m then m else x) = max x m := fun x m => by
    split
    · next h => exact (max_eq_right h.le).symm
    · next h => exact (max_eq_left (not_lt.1 h)).symm
  have h2 : ∀ x m : Rat, (if m < x then m else x) = min x m := fun x m => by
    split
    · next h => exact (min_eq_right h.le).symm
    · next h => exact (min_eq_left (not_lt.1 h)).symm
  cases lo <;> cases hi <;> simp only [h1, h2]

/-- C81.  `clip` of a float array of any layout limits every element to the bounds. -/
theorem C81_clip_float {h : Held PyNum} (hw : h.view.WF) (lo hi : Option Rat) (v : List Nat → Rat)
    (hv : ∀ idx, InShape h.view.shape idx → h.nd.get idx = .float (v idx)) :
    (clipWith .float lo hi h).Is ⟨h.view.shape, fun idx => .float (clipped lo hi (v idx))⟩ := by
  unfold clipWith
  dsimp only
  rw [mapLoop_eq _ _ hw]
  refine ⟨rfl, List.map_congr_left fun idx hi => ?_⟩
  have : h.mem (h.view.addr idx) = .float (v idx) := hv idx (mem_indices.mp hi)
  rw [this, loadF64, clipValue_eq]

theorem saturate_int (signed : Bool) (bits : Nat) (l : Int) : saturateInt signed bits (l : Rat) =
    if signed then max (-2 ^ (bits - 1)) (min (2 ^ (bits - 1) - 1) l) else max 0 (min (2 ^ bits - 1) l) := by
  unfold saturateInt f64ToInt
  simp

/-- C81.  `clip` of an integer array with whole bounds, the lower one not above and the upper one not
below all numbers of the dtype, limits every element to the bounds.  Missing: fractional bounds and
those outside (`C81_clip_counterexample`). -/
theorem C81_clip_int_partial (signed : Bool) {bits : Nat} (hb : 0 < bits) {h : Held PyNum} (hw : h.view.WF) (lo hi : Option Int)
    (hlo : ∀ l, lo = some l → l < (if signed then 2 ^ (bits - 1) else 2 ^ bits))
    (hhi : ∀ u, hi = some u → (if signed then -2 ^ (bits - 1) else 0) ≤ u) (v : List Nat → Int)
    (hv : ∀ idx, InShape h.view.shape idx → h.nd.get idx = .int (v idx) ∧ InIntRange signed bits (v idx)) :
    ∃ g : List Nat → Int, (clipWith (.int signed bits) (lo.map Int.cast) (hi.map Int.cast) h).Is ⟨h.view.shape, fun idx => .int (g idx)⟩ ∧
      ∀ idx, InShape h.view.shape idx → (g idx : Rat) = clipped (lo.map Int.cast) (hi.map Int.cast) (v idx) := by
  set c : Int → Int := fun x => clipValue lo hi x with hc
  have cast : ∀ x : Int, ((c x : Int) : Rat) = clipped (lo.map Int.cast) (hi.map Int.cast) x := by
    intro x
    rw [← clipValue_eq, hc]
    unfold clipValue
    cases lo <;> cases hi <;> simp <;> (repeat' split) <;> first | rfl | (exfalso; simp_all; done) | (simp_all; done) | (simp_all; omega)
  have hrange : ∀ x, InIntRange signed bits x → InIntRange signed bits (c x) := by
    intro x hx
    unfold InIntRange at *
    rw [hc]
    unfold clipValue
    cases signed <;> cases lo <;> cases hi <;> simp_all <;> (repeat' split) <;> first | omega | skip
  refine ⟨fun idx => c (v idx), ?_, fun idx _ => cast _⟩
  unfold clipWith
  dsimp only
  split
  · next h8 =>
    rw [mapUnaryFallback_eq _ _ hw]
    refine ⟨rfl, List.map_congr_left fun idx hi' => ?_⟩
    obtain ⟨e, hr⟩ := hv idx (mem_indices.mp hi')
    have : h.mem (h.view.addr idx) = .int (v idx) := e
    have hsmall : (v idx).natAbs ≤ 2 ^ 53 := by
      unfold InIntRange at hr
      rw [if_pos h8.1, h8.2] at hr
      omega
    rw [this, loadF64, intToF64_exact hsmall, clipValue_eq, ← cast, storeF64, saturate_int]
    have := hrange _ hr
    unfold InIntRange at this
    rw [if_pos h8.1] at this ⊢
    congr 1
    omega
  · rw [mapLoop_eq _ _ hw]
    refine ⟨rfl, List.map_congr_left fun idx hi' => ?_⟩
    obtain ⟨e, hr⟩ := hv idx (mem_indices.mp hi')
    have : h.mem (h.view.addr idx) = .int (v idx) := e
    rw [this, loadInt]
    dsimp only
    congr 1
    rw [Option.map_map, Option.map_map, hc]
    unfold InIntRange at hr
    unfold clipValue
    cases signed <;> cases lo <;> cases hi <;> simp [saturate_int] <;> simp_all <;> (repeat' split) <;> first | omega | skip

/-- C81.  With a fractional lower bound elements below it stay; a negative fractional upper bound is
exceeded; a bound beyond `2^53` is another number; and a bound outside the dtype is replaced. -/
theorem C81_clip_counterexample :
    (clipWith (.int true 64) (some (3 / 2)) none (Held.of ⟨[1], [.int 1]⟩ 8 (.int 0))).data = [.int 1] ∧
    clipped (some (3 / 2)) none 1 = 3 / 2 ∧
    (clipWith (.int true 64) none (some (-5 / 2)) (Held.of ⟨[1], [.int 0]⟩ 8 (.int 0))).data = [.int (-2)] ∧
    clipped none (some (-5 / 2)) 0 = -5 / 2 ∧
    (clipOf (.int true 64) none (some (.int (2 ^ 53 + 1))) (Held.of ⟨[1], [.int (2 ^ 53 + 1)]⟩ 8 (.int 0))).map (·.data) = some [.int (2 ^ 53)] ∧
    (clipWith (.int false 8) (some 300) none (Held.of ⟨[1], [.int 7]⟩ 1 (.int 0))).data = [.int 255] := by
  refine ⟨?_, ?_, ?_, ?_, ?_, ?_⟩ <;> decide +kernel

end Props
