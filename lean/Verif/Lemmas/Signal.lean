import Verif.Model.Signal
import Verif.Lemmas.Cumulative
import Verif.Lemmas.Copy
import Verif.Lemmas.SetOps
import Verif.Props.Edit
import Mathlib.Tactic.LinearCombination
import Mathlib.Tactic.Linarith
import Mathlib.Tactic.FieldSimp
import Mathlib.Algebra.Order.Floor.Semiring
/-! # Lemmas: unwrap and trim_zeros -/

namespace Rumpy
open Spec

/-! ### Lanes of a new array -/

theorem fresh_cell {s : List Nat} {axis : Nat} (hax : axis < s.length) {idx : List Nat}
    (hi : InShape (s.eraseIdx axis) idx) {j : Nat} (hj : j < s.getD axis 0) :
    ((byteOffset idx ((cStrides s 8).eraseIdx axis) + (j : Int) * (cStrides s 8).getD axis 0) / 8).toNat = rank s (idx.insertIdx axis j) := by
  have h1 := lane_addr (View.WF.fresh s 8) hax hi j
  have h2 := cFlag_addr (View.WF.fresh s 8) rfl (inShape_insertIdx hax hi hj)
  rw [h1] at h2
  simp only [View.fresh] at h2
  rw [Int.mul_comm] at h2
  have h3 : byteOffset idx ((cStrides s 8).eraseIdx axis) + (j : Int) * (cStrides s 8).getD axis 0 =
      (rank s (idx.insertIdx axis j) : Int) * 8 := by
    simpa using h2
  rw [h3]
  omega

/-- Lanes rewritten one after the other, each from what it holds. -/
theorem foldl_lanes {s : List Nat} {axis : Nat} (hax : axis < s.length) (step : List α → List Nat → List α)
    (g : List Nat → List (Nat × α)) (d0 : List α)
    (hpos : ∀ idx, InShape (s.eraseIdx axis) idx → ∀ w ∈ g idx, ∃ j, j < s.getD axis 0 ∧ w.1 = rank s (idx.insertIdx axis j))
    (hstep : ∀ idx, InShape (s.eraseIdx axis) idx → ∀ d : List α, d.length = size s →
      (∀ j, j < s.getD axis 0 → d[rank s (idx.insertIdx axis j)]? = d0[rank s (idx.insertIdx axis j)]?) →
      step d idx = writes (g idx) d) :
    ∀ (L : List (List Nat)), L.Nodup → (∀ idx ∈ L, InShape (s.eraseIdx axis) idx) → ∀ d : List α, d.length = size s →
      (∀ idx ∈ L, ∀ j, j < s.getD axis 0 → d[rank s (idx.insertIdx axis j)]? = d0[rank s (idx.insertIdx axis j)]?) →
      L.foldl step d = writes (L.flatMap g) d
  | [], _, _, d, _, _ => rfl
  | idx :: L, hn, hin, d, hd, hag => by
    have hi := hin idx (by simp)
    rw [List.foldl_cons, hstep idx hi d hd (hag idx (by simp)), List.flatMap_cons, writes_append]
    refine foldl_lanes hax step g d0 hpos hstep L (List.nodup_cons.1 hn).2 (fun i h => hin i (by simp [h])) _ (by simpa using hd) ?_
    intro i hiL j hj
    rw [writes_get_notMem, hag i (by simp [hiL]) j hj]
    intro hm
    obtain ⟨w, hw, hwe⟩ := List.mem_map.1 hm
    obtain ⟨j', hj', hr⟩ := hpos idx hi w hw
    have hi' := hin i (by simp [hiL])
    have he := rank_inj (inShape_insertIdx hax hi hj') (inShape_insertIdx hax hi' hj) (by rw [← hr, hwe])
    have h1 := congrArg (fun l : List Nat => l.eraseIdx axis) he
    rw [eraseIdx_insertIdx_self _ _ _ (by have := lane_length hax hi; omega),
      eraseIdx_insertIdx_self _ _ _ (by have := lane_length hax hi'; omega)] at h1
    exact (List.nodup_cons.1 hn).1 (h1 ▸ hiL)

/-! ### The loop of unwrap -/

section
variable {K : Type} [Field K] [LinearOrder K] [IsStrictOrderedRing K] [FloorRing K]

/-- The cumulative correction after `k` differences. -/
def corrAt (period discont : K) (x : Nat → K) : Nat → K
  | 0 => 0
  | k + 1 => unwrapStep period discont (corrAt period discont x k) (x (k + 1) - x k)

theorem unwrapLoop_length (period discont : K) : ∀ (l : List K) (prev cum : K),
    (unwrapLoop period discont prev cum l).length = l.length
  | [], _, _ => rfl
  | c :: cs, _, _ => by rw [unwrapLoop, List.length_cons, unwrapLoop_length period discont cs, List.length_cons]

theorem unwrapLoop_eq (period discont : K) (x : Nat → K) : ∀ (m k : Nat),
    unwrapLoop period discont (x k) (corrAt period discont x k) ((List.range m).map fun i => x (k + i + 1)) =
      (List.range m).map fun i => x (k + i + 1) + corrAt period discont x (k + i + 1)
  | 0, k => rfl
  | m + 1, k => by
    rw [List.range_succ_eq_map, List.map_cons, List.map_cons, List.map_map, List.map_map, unwrapLoop]
    have ih := unwrapLoop_eq period discont x m (k + 1)
    have e : ((fun i => x (k + i + 1)) ∘ Nat.succ) = fun i => x (k + 1 + i + 1) := by
      funext i; simp only [Function.comp_apply]; congr 1; omega
    have e' : ((fun i => x (k + i + 1) + corrAt period discont x (k + i + 1)) ∘ Nat.succ) =
        fun i => x (k + 1 + i + 1) + corrAt period discont x (k + 1 + i + 1) := by
      funext i; simp only [Function.comp_apply]
      rw [show k + Nat.succ i + 1 = k + 1 + i + 1 by omega]
    rw [e, e', ← ih]
    rfl

/-- The unwrapped sequence. -/
def unwrapSeq (period discont : K) (x : Nat → K) (k : Nat) : K := x k + corrAt period discont x k

theorem floor_bounds {period : K} (hp : 0 < period) (d : K) :
    -(period / 2) ≤ d - ⌊(d + period / 2) / period⌋ * period ∧ d - ⌊(d + period / 2) / period⌋ * period < period / 2 := by
  have h1 := Int.floor_le ((d + period / 2) / period)
  have h2 := Int.lt_floor_add_one ((d + period / 2) / period)
  rw [le_div_iff₀ hp] at h1
  rw [div_lt_iff₀ hp] at h2
  constructor
  · linarith
  · linarith

theorem unwrapSeq_is {period : K} (hp : 0 < period) (discont : K) (x : Nat → K) (n : Nat) :
    IsUnwrapped period discont n x (unwrapSeq period discont x) := by
  refine ⟨by simp [unwrapSeq, corrAt], fun k _ => ?_, fun k _ => ⟨fun h => ?_, fun h => ?_⟩⟩
  · suffices h : ∃ m : Int, corrAt period discont x k = m * period by
      obtain ⟨m, hm⟩ := h
      exact ⟨m, by rw [unwrapSeq, hm]⟩
    induction k with
    | zero => exact ⟨0, by simp [corrAt]⟩
    | succ k ih =>
      obtain ⟨m, hm⟩ := ih (by omega)
      rw [corrAt, unwrapStep]
      split
      · exact ⟨m - ⌊(x (k + 1) - x k + period / 2) / period⌋, by rw [hm]; push_cast; ring⟩
      · exact ⟨m, hm⟩
  · have e : corrAt period discont x (k + 1) = corrAt period discont x k := by
      rw [corrAt, unwrapStep, if_neg (not_lt.2 h)]
    rw [unwrapSeq, unwrapSeq, e]
    ring
  · have e : unwrapSeq period discont x (k + 1) - unwrapSeq period discont x k =
        (x (k + 1) - x k) - ⌊(x (k + 1) - x k + period / 2) / period⌋ * period := by
      rw [unwrapSeq, unwrapSeq, corrAt, unwrapStep, if_pos h]
      ring
    rw [e]
    exact floor_bounds hp _

/-- Two multiples of the period in a half-open interval of that length are equal. -/
theorem multiple_unique {period a b : K} (hp : 0 < period) {m : Int} (h : a = b + m * period) (hlt : |a - b| < period) : a = b := by
  have h1 : |(m : K) * period| < period := by rwa [h, add_sub_cancel_left] at hlt
  rw [abs_mul, abs_of_pos hp] at h1
  have h2 : |(m : K)| < 1 := by
    by_contra hc
    have := mul_le_mul_of_nonneg_right (not_lt.1 hc) hp.le
    rw [one_mul] at this
    linarith
  have h3 : |m| < 1 := by exact_mod_cast h2
  have h4 : m = 0 := Int.abs_lt_one_iff.1 h3
  rw [h, h4]; simp

/-- The unwrapped sequence is determined by the specification. -/
theorem unwrapped_unique {period : K} (hp : 0 < period) {discont : K} {n : Nat} {x y z : Nat → K}
    (hy : IsUnwrapped period discont n x y) (hz : IsUnwrapped period discont n x z) : ∀ k, k < n → y k = z k
  | 0, _ => by rw [hy.1, hz.1]
  | k + 1, hk => by
    have ih := unwrapped_unique hp hy hz k (by omega)
    obtain ⟨m, hm⟩ := hy.2.1 (k + 1) hk
    obtain ⟨m', hm'⟩ := hz.2.1 (k + 1) hk
    by_cases hd : |x (k + 1) - x k| ≤ discont
    · have h1 := (hy.2.2 k hk).1 hd
      have h2 := (hz.2.2 k hk).1 hd
      linarith
    · have h1 := (hy.2.2 k hk).2 (not_le.1 hd)
      have h2 := (hz.2.2 k hk).2 (not_le.1 hd)
      refine multiple_unique hp (m := m - m') (by rw [hm, hm']; push_cast; ring) ?_
      rw [abs_lt]
      constructor <;> linarith

/-- What the loop over lanes leaves in the new array. -/
def unwrapGet (period discont : K) (a : Nd K) (axis : Nat) (idx : List Nat) : K :=
  unwrapSeq period discont (fun k => a.get (idx.set axis k)) (idx.getD axis 0)

theorem unwrapGet_insert (period discont : K) (a : Nd K) {axis : Nat} {idx : List Nat} (h : axis ≤ idx.length) (j : Nat) :
    unwrapGet period discont a axis (idx.insertIdx axis j) =
      unwrapSeq period discont (fun k => a.get (idx.insertIdx axis k)) j := by
  unfold unwrapGet
  rw [getD_insertIdx_self _ _ _ h]
  congr 1
  funext k
  rw [set_insertIdx_self _ _ _ _ h]

theorem toList_rank (a : Nd α) {idx : List Nat} (hi : InShape a.shape idx) : a.toList[rank a.shape idx]? = some (a.get idx) := by
  unfold Nd.toList
  rw [List.getElem?_map, indices_getElem?_rank hi]
  rfl

theorem unwrapLanes_eq (period discont : K) (a : Nd K) {axis : Nat} (hax : axis < a.shape.length) (hn : 2 ≤ a.shape.getD axis 0) :
    (axisOffsetIter a.shape (cStrides a.shape 8) axis 0).toList.foldl
        (unwrapLane period discont (a.shape.getD axis 0) ((cStrides a.shape 8).getD axis 0)) a.toList =
      (indices a.shape).map (unwrapGet period discont a axis) := by
  rw [Props.C01_axis_iter_row_major a.shape (cStrides a.shape 8) axis 0 (View.WF.fresh a.shape 8).len, List.foldl_map]
  have hlen : a.toList.length = size a.shape := Nd.length_toList a
  let g : List Nat → List (Nat × K) := fun idx => (List.range (a.shape.getD axis 0)).map fun j =>
    (rank a.shape (idx.insertIdx axis j), unwrapGet period discont a axis (idx.insertIdx axis j))
  rw [foldl_lanes hax (fun d idx => unwrapLane period discont (a.shape.getD axis 0) ((cStrides a.shape 8).getD axis 0) d
    (0 + byteOffset idx ((cStrides a.shape 8).eraseIdx axis))) g a.toList ?_ ?_ _ (indices_nodup _)
    (fun idx h => mem_indices.1 h) a.toList hlen (fun _ _ _ _ => rfl)]
  · exact writes_lanes hax (unwrapGet period discont a axis) hlen g fun idx _ => rfl
  · intro idx _ w hw
    obtain ⟨j, hj, rfl⟩ := List.mem_map.1 hw
    exact ⟨j, List.mem_range.1 hj, rfl⟩
  · intro idx hi d hd hag
    have hil := lane_length hax hi
    have hcell : ∀ j, j < a.shape.getD axis 0 →
        ((0 + byteOffset idx ((cStrides a.shape 8).eraseIdx axis) + (j : Int) * (cStrides a.shape 8).getD axis 0) / 8).toNat =
          rank a.shape (idx.insertIdx axis j) := fun j hj => by
      rw [Int.zero_add]; exact fresh_cell hax hi hj
    have hread : ∀ j, j < a.shape.getD axis 0 → d[rank a.shape (idx.insertIdx axis j)]? = some (a.get (idx.insertIdx axis j)) :=
      fun j hj => by rw [hag j hj]; exact toList_rank a (inShape_insertIdx hax hi hj)
    obtain ⟨m, hm⟩ : ∃ m, a.shape.getD axis 0 = m + 1 := ⟨a.shape.getD axis 0 - 1, by omega⟩
    have hg : g idx = (rank a.shape (idx.insertIdx axis 0), a.get (idx.insertIdx axis 0)) :: (List.range m).map fun i =>
        (rank a.shape (idx.insertIdx axis (i + 1)), unwrapSeq period discont (fun k => a.get (idx.insertIdx axis k)) (i + 1)) := by
      show (List.range (a.shape.getD axis 0)).map _ = _
      rw [hm, List.range_succ_eq_map, List.map_cons, List.map_map, unwrapGet_insert _ _ _ (by omega)]
      congr 1
      · simp [unwrapSeq, corrAt]
      · apply List.map_congr_left
        intro i _
        simp only [Function.comp_apply]
        rw [unwrapGet_insert _ _ _ (by omega)]
    rw [hg, writes_cons]
    have h0 : d.set (rank a.shape (idx.insertIdx axis 0)) (a.get (idx.insertIdx axis 0)) = d := by
      have h := hread 0 (by omega)
      obtain ⟨hl, he⟩ := List.getElem?_eq_some_iff.1 h
      rw [← he]
      exact List.set_getElem_self hl
    dsimp only
    rw [h0]
    unfold unwrapLane
    dsimp only
    have hvals : ((List.range (a.shape.getD axis 0 - 1)).map fun i =>
        d.getD ((0 + byteOffset idx ((cStrides a.shape 8).eraseIdx axis) + ((i + 1 : Nat) : Int) * (cStrides a.shape 8).getD axis 0) / 8).toNat 0) =
        (List.range m).map fun i => a.get (idx.insertIdx axis (0 + i + 1)) := by
      rw [hm]
      apply List.map_congr_left
      intro i hi'
      have hi' := List.mem_range.1 hi'
      rw [hcell (i + 1) (by omega), List.getD_eq_getElem?_getD, hread (i + 1) (by omega), Nat.zero_add]
      rfl
    have hfirst : d.getD (rank a.shape (idx.insertIdx axis 0)) 0 = a.get (idx.insertIdx axis 0) := by
      rw [List.getD_eq_getElem?_getD, hread 0 (by omega), Option.getD_some]
    rw [hvals, hcell 0 (by omega), hfirst]
    have hloop := unwrapLoop_eq period discont (fun k => a.get (idx.insertIdx axis k)) m 0
    rw [show corrAt period discont (fun k => a.get (idx.insertIdx axis k)) 0 = 0 from rfl] at hloop
    rw [hloop]
    congr 1
    apply List.ext_getElem?
    intro k
    by_cases hk : k < m
    · simp only [List.getElem?_map, List.getElem?_zipIdx, List.getElem?_range hk, Option.map_some, Nat.zero_add]
      rw [hcell (k + 1) (by omega)]
      rfl
    · simp [hk]

end

/-! ### Trimming -/

theorem trimmed_back (zero : α → Bool) (m : List α) :
    (m.reverse.dropWhile zero).reverse = m.take (m.length - m.reverse.findIdx fun x => !zero x) := by
  rw [List.dropWhile_eq_drop_findIdx_not, List.reverse_drop, List.reverse_reverse, List.length_reverse]

/-- The bounds cut out the trimmed list. -/
theorem trimBounds_eq (zero : α → Bool) (trim : List Char) (l : List α) :
    (trimBounds (fun x => !zero x) trim l).2 ≤ l.length ∧
      (l.drop (trimBounds (fun x => !zero x) trim l).1).take
          ((trimBounds (fun x => !zero x) trim l).2 - (trimBounds (fun x => !zero x) trim l).1) =
        trimmed zero (trim.contains 'f' || trim.contains 'F') (trim.contains 'b' || trim.contains 'B') l := by
  have hle : l.findIdx (fun x => !zero x) ≤ l.length := List.findIdx_le_length
  unfold trimBounds trimmed
  dsimp only
  generalize (trim.contains 'f' || trim.contains 'F') = f
  generalize (trim.contains 'b' || trim.contains 'B') = b
  have hfront : (if f = true then l.dropWhile zero else l) = l.drop (if f = true then l.findIdx (fun x => !zero x) else 0) := by
    cases f
    · rfl
    · exact List.dropWhile_eq_drop_findIdx_not
  rw [hfront]
  have ha : (if f = true then l.findIdx (fun x => !zero x) else 0) ≤ l.findIdx (fun x => !zero x) := by split <;> omega
  generalize (if f = true then l.findIdx (fun x => !zero x) else 0) = a at ha
  cases b
  · refine ⟨le_refl _, ?_⟩
    simp only [Bool.false_eq_true, if_false]
    exact List.take_of_length_le (by simp)
  · simp only [if_true]
    rw [trimmed_back, List.length_drop, List.reverse_drop, List.findIdx_take]
    cases hf : l.reverse.findIdx? (fun x => !zero x) with
    | none =>
      have h1 : l.reverse.findIdx (fun x => !zero x) = l.length := by
        rw [← List.length_reverse (as := l)]
        exact List.findIdx_eq_length.2 (List.findIdx?_eq_none_iff.1 hf)
      dsimp only
      refine ⟨by omega, ?_⟩
      rw [h1, Nat.min_eq_left (by omega)]
      simp
    | some j =>
      obtain ⟨h1, h2⟩ := List.findIdx?_eq_some_iff_findIdx_eq.1 hf
      rw [List.length_reverse] at h1
      have h3 : l.findIdx (fun x => !zero x) ≤ l.length - 1 - j := by
        have hp := (List.findIdx_eq (by rw [List.length_reverse]; exact h1)).1 h2
        rw [List.getElem_reverse] at hp
        by_contra hc
        have := List.not_of_lt_findIdx (not_le.1 hc)
        rw [hp.1] at this
        exact absurd this (by decide)
      dsimp only
      refine ⟨Nat.sub_le _ _, ?_⟩
      clear hf hfront
      generalize l.findIdx (fun x => !zero x) = q at *
      rw [h2]
      clear h2
      rw [Nat.min_eq_right (by omega)]
      rw [Nat.sub_right_comm]

end Rumpy
