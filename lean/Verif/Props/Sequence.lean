import Verif.Spec.Sequence
import Verif.Model.Sequence
import Verif.Props.Index
import Verif.Props.Arith
import Verif.Props.Ufunc
/-!
# C103: arrays as Python sequences, truth values and numbers
-/

namespace Props
open Spec Rumpy

/-! ### Iteration -/

theorem getInt_some {v : View} (hw : v.WF) (hs : v.shape ≠ []) (i : Int) : ∃ w, v.getInt i = some w := by
  obtain ⟨n, s, hs⟩ := List.exists_cons_of_ne_nil hs
  have hl := hw.len
  rw [hs] at hl
  obtain ⟨st, sts, hst⟩ : ∃ st sts, v.strides = st :: sts := by
    cases hv : v.strides with
    | nil => rw [hv] at hl; simp at hl
    | cons a b => exact ⟨a, b, rfl⟩
  unfold View.getInt View.sliceAxis
  rw [hs, hst]
  simp

theorem iterItem_ok {v : View} (hs : v.shape ≠ []) {i : Nat} {w : View} (h : v.getInt i = some w) : iterItem v i = .ok w := by
  unfold iterItem
  cases hv : v.shape with
  | nil => exact absurd hv hs
  | cons a b => dsimp only; rw [h]

theorem iterate_ok {v : View} (hs : v.shape ≠ []) {f : Nat → View} (hf : ∀ i : Nat, v.getInt i = some (f i)) :
    ∀ k i, iterate v i k = some ((List.range k).map (fun j => f (i + j)), false)
  | 0, i => rfl
  | k + 1, i => by
    unfold iterate
    rw [iterItem_ok hs (hf i)]
    dsimp only
    rw [iterate_ok hs hf k (i + 1), List.range_succ_eq_map]
    simp only [Option.map_some, List.map_cons, List.map_map, Nat.add_zero]
    congr 4
    funext j
    simp only [Function.comp]
    congr 1
    omega

/-- C103 (partial): an iteration over an array of one or more dimensions and no reversed axis yields the rows in order.  Missing: the
end of the iteration, and reversed axes; see the counterexamples. -/
theorem C103_rows_partial {α : Type} (mem : Int → α) {v : View} (hw : v.WF) {n : Nat} {s : List Nat} (hs : v.shape = n :: s)
    (hn : ∀ x ∈ v.strides, 0 ≤ x) {k : Nat} (hk : k ≤ n) :
    ∃ l : List View, iterate v 0 k = some (l, false) ∧ l.length = k ∧ ∀ (i : Nat) (w : View), l[i]? = some w → (w.denote mem).Same ((v.denote mem).row i) := by
  have hs' : v.shape ≠ [] := by rw [hs]; exact List.cons_ne_nil _ _
  choose f hf using fun i : Nat => getInt_some hw hs' i
  refine ⟨_, iterate_ok hs' hf k 0, by simp, fun i w h => ?_⟩
  have hik : i < k := by
    by_contra hik
    rw [List.getElem?_eq_none (by simp; omega)] at h
    cases h
  rw [List.getElem?_map, List.getElem?_range hik] at h
  simp only [Option.map_some, Option.some.injEq, Nat.zero_add] at h
  subst h
  obtain ⟨w, h1, -, h3, h4⟩ := C13_getint_partial mem v hw n s hs hn i (by omega) (by omega)
  rw [hf i] at h1
  cases h1
  refine ⟨by rw [h3]; show s = v.shape.tail; rw [hs]; rfl, fun idx hi => ?_⟩
  rw [h3] at hi
  rw [h4 idx hi, if_neg (by omega)]
  rfl

example : (iterate (View.fresh [2, 3] 8) 0 2).map (fun r => r.1.map fun w => (w.shape, w.offset)) = some [([3], 0), ([3], 24)] := by decide

/-- C103: an iteration over an array of one or more dimensions never ends: `list(a)`, `for x in a`, `x, y = a`, `sum(a)` do not
return. -/
theorem C103_never_ends_counterexample {v : View} (hw : v.WF) (hs : v.shape ≠ []) (k : Nat) :
    ∃ l, iterate v 0 k = some (l, false) ∧ l.length = k := by
  choose f hf using fun i : Nat => getInt_some hw hs i
  exact ⟨_, iterate_ok hs hf k 0, by simp⟩

example : (View.fresh [3] 8).WF ∧ (View.fresh [3] 8).shape ≠ [] := ⟨View.WF.fresh _ _, by decide⟩

/-- C103: the items from the length of the array on lie outside its buffer. -/
theorem C103_past_the_end_counterexample (n item : Nat) (hitem : 0 < item) (i : Nat) (hi : n ≤ i) :
    ∃ w, iterItem (View.fresh [n] item) i = .ok w ∧ w.shape = [] ∧ ¬ InBuf (n * item) w := by
  refine ⟨⟨i * item, [], [], item, true, true⟩, iterItem_ok (by simp [View.fresh]) ?_, rfl, fun h => ?_⟩
  · simp [View.getInt, View.fresh, View.sliceAxis, cStrides, normalizeIndex, View.viewWith, View.squeezeAxis,
      show ¬ ((i : Int) < 0) by omega, show View.sliceLen (i : Int) (i + 1) 1 = 1 by simp [View.sliceLen], isCContiguous, isFContiguous,
      cStridesAux, isCAux, isFAux, Contig.result]
  · have := (h [] trivial).2
    have e : (View.mk (i * item : Int) [] [] item true true).addr [] = (i * item : Int) := by simp [View.addr, byteOffset]
    rw [e] at this
    have h2 : (n : Int) * item ≤ i * item := Int.mul_le_mul_of_nonneg_right (by omega) (by omega)
    simp only at this
    push_cast at this
    omega

/-- C103: in a reversed array the second item is not the second element: it lies outside the buffer. -/
theorem C103_reversed_counterexample :
    ∃ v w : View, v.WF ∧ v.shape = [3] ∧ InBuf 24 v ∧ iterItem v 1 = .ok w ∧ w.addr [] = 24 ∧ v.addr [1] = 8 ∧ ¬ InBuf 24 w := by
  refine ⟨⟨16, [3], [-8], 8, false, false⟩, ⟨24, [], [], 8, true, true⟩, ⟨by decide, fun h => (nomatch h), fun h => (nomatch h)⟩, rfl, ?_, by decide,
    by decide, by decide, fun h => absurd (h [] trivial).2 (by decide)⟩
  intro idx hi
  match idx, hi with
  | [a], hi =>
    have : a < 3 := (inShape_iff_getD.1 hi).2 0 (by simp)
    simp only [View.addr, byteOffset]
    omega

/-! ### Truth and membership -/

/-- C103: every array is true: an array of one zero, an empty array, and arrays of several elements (NumPy refuses those). -/
theorem C103_truth_counterexample :
    (∀ v, truthOf v = true) ∧ ∃ h : Held Elem, h.view.WF ∧ h.nd.toList = [.int 0] ∧ ¬ (Elem.int 0).Truthy ∧ truthOf h.view = true := by
  refine ⟨fun _ => rfl, stored .i64 [1] [.int 0], View.WF.fresh _ _, by decide +kernel, fun h => absurd rfl h, rfl⟩

/-- C103: every number is in every array of one or more dimensions, even in an empty array. -/
theorem C103_contains_counterexample {v : View} (hw : v.WF) (hs : v.shape ≠ []) (k : Nat) :
    containsLoop v 0 (k + 1) = some true ∧ containsLoop (View.fresh [0] 8) 0 (k + 1) = some true := by
  have : ∀ {v : View}, v.WF → v.shape ≠ [] → containsLoop v 0 (k + 1) = some true := by
    intro v hw hs
    obtain ⟨w, h⟩ := getInt_some hw hs ((0 : Nat) : Int)
    unfold containsLoop
    rw [iterItem_ok hs h]
    rfl
  exact ⟨this hw hs, this (View.WF.fresh _ _) (by decide)⟩

/-! ### Numbers -/

theorem only_index {s : List Nat} (h : size s = 1) : InShape s (List.replicate s.length 0) := by
  rw [inShape_iff_getD]
  refine ⟨by simp, fun d hd => ?_⟩
  have hp : 0 < s.getD d 0 := by
    by_contra h0
    have h0 : s.getD d 0 = 0 := by omega
    have : (0 : Nat) ∈ s := by
      rw [List.getD_eq_getElem _ _ hd] at h0
      exact h0 ▸ List.getElem_mem hd
    have : size s = 0 := size_eq_zero_iff.2 this
    omega
  rw [List.getD_eq_getElem _ _ (by simpa using hd), List.getElem_replicate]
  exact hp

/-- C103: `float(a)` and `a.item()` of an array of one element of a real dtype are the element, rounded to a float64; other sizes are
refused. -/
theorem C103_float {d : DType} (hd : d.Real) {h : Held Elem} (ht : Typed d h) :
    (size h.view.shape ≠ 1 → floatOf h = .error) ∧
      (size h.view.shape = 1 → ∃ i u v, InShape h.view.shape i ∧ (h.nd.get i).parts = some (u, .num 0) ∧ floatOf h = .ok v ∧
        IsRounding 53 (-1074) 971 u v) := by
  unfold floatOf
  rw [sizeOf_eq]
  refine ⟨fun h1 => if_pos h1, fun h1 => ?_⟩
  rw [if_neg (by simpa using h1)]
  refine ⟨_, (h.nd.get (List.replicate h.view.shape.length 0)).parts.elim .nan Prod.fst, _, only_index h1, ?_, rfl, ?_⟩
  all_goals
    have hx := ht _ (only_index h1)
    have he : h.nd.get (List.replicate h.view.shape.length 0) = h.mem (h.view.addr (List.replicate h.view.shape.length 0)) := rfl
    try rw [← he]
    revert hx
    generalize h.nd.get (List.replicate h.view.shape.length 0) = x
    intro hx
  · cases x with
    | bool b => rfl
    | int n => rfl
    | flt u => rfl
    | cpx u v => cases d <;> first | exact hd.elim | exact hx.elim
    | text t => cases d <;> first | exact hd.elim | exact hx.elim
  · cases x with
    | bool b =>
      have : IsFlt 53 (-1074) 971 (.num ((if b then 1 else 0 : Int) : ℚ)) := isFloat_small (by cases b <;> decide)
      cases b <;> simpa [readF64, Elem.parts] using isRounding_self this
    | int n =>
      have hb : n.natAbs < 2 ^ 65 := by
        cases d <;> first | exact hd.elim | (obtain ⟨lo, hi, hc, l1, l2⟩ := hx; cases hc; done) |
          (obtain ⟨lo, hi, hc, l1, l2⟩ := hx; cases hc; omega)
      have := toFormat_rounding (p := 53) (lo := -1074) (hi := 971) (by decide) (by decide) (.num (n : ℚ))
      rw [show toFormat 53 (-1074) 971 (.num (n : ℚ)) = .num (intToF64 n : ℚ) from intToF64_round hb] at this
      exact this
    | flt u =>
      have : IsFlt 53 (-1074) 971 u := by
        obtain ⟨w, h1, h2, h3⟩ := readF64_real hd hx (fun n hn => nomatch hn)
        cases h1
        exact h3
      exact isRounding_self this
    | cpx u v => cases d <;> first | exact hd.elim | exact hx.elim
    | text t => cases d <;> first | exact hd.elim | exact hx.elim

example : floatOf (stored .u8 [1, 1] [.int 7]) = .ok (.num 7) ∧ floatOf (stored .f32 [] [.flt .nan]) = .ok .nan ∧
    floatOf (stored .u8 [2] [.int 7, .int 8]) = .error := by
  refine ⟨by decide +kernel, by decide +kernel, by decide +kernel⟩

/-- C103 (partial): `int(a)` of one whole number of at most 53 bits is that number, and of one finite float in the range of `int64`
its truncation. Missing: larger numbers and NaN, see the counterexample. -/
theorem C103_int_partial {h : Held Elem} (h1 : size h.view.shape = 1) :
    (∀ m, (h.nd.get (List.replicate h.view.shape.length 0)).whole = some m → m.natAbs ≤ 2 ^ 53 → intOf h = .ok m) ∧
      ∀ q n, h.nd.get (List.replicate h.view.shape.length 0) = .flt (.num q) → IsTrunc q n → -2 ^ 63 ≤ n → n < 2 ^ 63 → intOf h = .ok n := by
  have he : h.nd.get (List.replicate h.view.shape.length 0) = h.mem (h.view.addr (List.replicate h.view.shape.length 0)) := rfl
  have hf : floatOf h = .ok ((readF64 (h.nd.get (List.replicate h.view.shape.length 0))).getD (.num 0)) := by
    unfold floatOf
    rw [sizeOf_eq, if_neg (by simpa using h1), he]
  unfold intOf
  rw [hf]
  refine ⟨fun m hm hb => ?_, fun q n hq hn l1 l2 => ?_⟩
  · rw [readF64_whole hm hb]
    show Outcome.ok (fltToInt _ _ (.num (m : ℚ))) = _
    rw [fltToInt_trunc (isTrunc_int m) (by omega) (by omega)]
  · rw [hq]
    show Outcome.ok (fltToInt _ _ (.num q)) = _
    rw [fltToInt_trunc hn l1 (by omega)]

example : intOf (stored .i64 [1] [.int (-3)]) = .ok (-3) ∧ intOf (stored .f16 [1] [.flt (.num (-7 / 2))]) = .ok (-3) ∧
    intOf (stored .bool [1] [.bool true]) = .ok 1 := by
  refine ⟨by decide +kernel, by decide +kernel, by decide +kernel⟩

/-- C103: `int(a)` goes through a float64: 2^53 + 1 becomes 2^53; NaN becomes 0 and infinity the largest `int64` (Python refuses both);
the real part of a complex number is not seen by `float`. -/
theorem C103_int_counterexample :
    intOf (stored .i64 [1] [.int (2 ^ 53 + 1)]) = .ok (2 ^ 53) ∧ intOf (stored .f64 [1] [.flt .nan]) = .ok 0 ∧
      intOf (stored .f64 [1] [.flt .posInf]) = .ok (2 ^ 63 - 1) ∧ floatOf (stored .c128 [1] [.cpx (.num 5) (.num 0)]) = .ok (.num 0) := by
  refine ⟨by decide +kernel, by decide +kernel, by decide +kernel, by decide +kernel⟩

end Props
