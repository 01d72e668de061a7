import Verif.Model.DiffElem
import Verif.Props.Arith
import Verif.Props.Cumulative
/-!
# C124: first differences of arrays of every dtype
-/

namespace Props
open Rumpy Spec

/-- The next index along an axis. -/
def nextAlong (axis : Nat) (i : List Nat) : List Nat := i.set axis (i.getD axis 0 + 1)

theorem nextAlong_in {s : List Nat} {axis : Nat} (hax : axis < s.length) {i : List Nat} (hi : InShape (s.set axis (s.getD axis 0 - 1)) i) :
    InShape s i ∧ InShape s (nextAlong axis i) := by
  have key : ∀ (s : List Nat) (axis : Nat) (i : List Nat), axis < s.length → InShape (s.set axis (s.getD axis 0 - 1)) i →
      InShape s i ∧ InShape s (i.set axis (i.getD axis 0 + 1)) := by
    intro s
    induction s with
    | nil => intro axis i h; simp at h
    | cons n s ih =>
      intro axis i hax hi
      cases i with
      | nil => cases axis <;> exact hi.elim
      | cons k i =>
        cases axis with
        | zero =>
          have h1 : k < n - 1 := hi.1
          exact ⟨⟨by omega, hi.2⟩, ⟨by show k + 1 < n; omega, hi.2⟩⟩
        | succ a =>
          obtain ⟨g1, g2⟩ := ih a i (by simpa using hax) hi.2
          exact ⟨⟨hi.1, g1⟩, ⟨hi.1, g2⟩⟩
  exact key s axis i hax hi

/-- Every difference is made by one of the two subtractions. -/
theorem diffElems_get (d : DType) {h : Held Elem} (hw : h.view.WF) (hit : 0 < h.view.item) {axis : Nat} (hax : axis < h.view.shape.length) :
    (diffElems d h axis).shape = h.view.shape.set axis (h.view.shape.getD axis 0 - 1) ∧
      ∃ sub, (sub = diffTyped d ∨ sub = diffVia d) ∧ ∀ i, InShape (h.view.shape.set axis (h.view.shape.getD axis 0 - 1)) i →
        (diffElems d h axis).at? i = some (sub (h.nd.get (nextAlong axis i)) (h.nd.get i)) := by
  have fin : ∀ sub : Elem → Elem → Elem, (diffElems d h axis).Is ((h.view.denote h.mem).differencesN sub 1 axis) →
      ∀ i, InShape (h.view.shape.set axis (h.view.shape.getD axis 0 - 1)) i →
        (diffElems d h axis).at? i = some (sub (h.nd.get (nextAlong axis i)) (h.nd.get i)) := by
    intro sub his i hi
    exact his.at? (idx := i) hi
  by_cases hf : h.view.shape.length = 1 ∧ h.view.cFlag = true
  · obtain ⟨h1, h2⟩ := C20_diff_partial (diffTyped d) (diffVia d) (zeroElem d) 1 h.mem h.view hw hit axis hax (Or.inr (le_refl _)) (Or.inl hf)
    exact ⟨h2, _, Or.inl rfl, fin _ h1⟩
  · have e : diffElems d h axis = diff (diffVia d) (diffVia d) (zeroElem d) 1 h.mem h.view axis := by
      unfold diffElems diff diffStep
      have h0 : ¬ (0 + 1 > 1) := by omega
      simp only [if_neg hf, if_neg h0]
    obtain ⟨h1, h2⟩ := C20_diff_partial (diffVia d) (diffVia d) (zeroElem d) 1 h.mem h.view hw hit axis hax (Or.inr (le_refl _))
      (Or.inr fun _ _ => rfl)
    rw [← e] at h1 h2
    exact ⟨h2, _, Or.inr rfl, fin _ h1⟩

/-- C124: the first differences of a float array of any of the three formats, of any layout, are the exact differences of neighbours, rounded
once. -/
theorem C124_floats {d : DType} (hd : DType.isFloat d = true) {p : Nat} {lo hi : Int} (hfm : d.format = some (p, lo, hi)) {h : Held Elem}
    (hw : h.view.WF) (hit : 0 < h.view.item) (ht : Typed d h) {axis : Nat} (hax : axis < h.view.shape.length) :
    (diffElems d h axis).shape = h.view.shape.set axis (h.view.shape.getD axis 0 - 1) ∧
      ∀ i, InShape (h.view.shape.set axis (h.view.shape.getD axis 0 - 1)) i → ∃ u v w, h.nd.get (nextAlong axis i) = .flt u ∧
        h.nd.get i = .flt v ∧ (diffElems d h axis).at? i = some (.flt w) ∧ IsArith p lo hi .sub u v w := by
  obtain ⟨h1, sub, hsub, h2⟩ := diffElems_get d hw hit hax
  refine ⟨h1, fun i hi' => ?_⟩
  obtain ⟨i1, i2⟩ := nextAlong_in hax hi'
  have flt : ∀ x : Elem, x.OfType d → ∃ u, x = .flt u ∧ IsFlt p lo hi u := by
    intro x hx
    rcases isFloat_cases hd with rfl | rfl | rfl <;> cases hfm <;> cases x <;>
      first | exact ⟨_, rfl, hx⟩ | exact hx.elim | (obtain ⟨_, _, hx, _⟩ := hx; cases hx)
  obtain ⟨u, hu, fu⟩ := flt _ (ht _ i2)
  obtain ⟨v, hv, fv⟩ := flt _ (ht _ i1)
  have e := h2 i hi'
  rw [hu, hv] at e
  have via : ∃ w, diffVia d (.flt u) (.flt v) = .flt w ∧ IsArith p lo hi .sub u v w :=
    mixed_isArith hd hfm noPow false (op := .sub) (by simp) fu fv
  have typed : ∃ w, diffTyped d (.flt u) (.flt v) = .flt w ∧ IsArith p lo hi .sub u v w := by
    rcases isFloat_cases hd with rfl | rfl | rfl
    · exact via
    · cases hfm; exact ⟨_, rfl, kernel_isArith (by norm_num) (by norm_num) false (op := .sub) rfl (by simp) u v⟩
    · cases hfm; exact ⟨_, rfl, kernel_isArith (by norm_num) (by norm_num) false (op := .sub) rfl (by simp) u v⟩
  have both : ∃ w, sub (.flt u) (.flt v) = .flt w ∧ IsArith p lo hi .sub u v w := by
    rcases hsub with rfl | rfl
    · exact typed
    · exact via
  obtain ⟨w, e1, e2⟩ := both
  rw [e1] at e
  exact ⟨u, v, w, hu, hv, e, e2⟩

/-- C124 (partial): the first differences of a contiguous complex vector subtract the real and the imaginary parts, each rounded once.
Missing: the other layouts and ranks (`C124_counterexample`). -/
theorem C124_complex_partial {d : DType} {p : Nat} {lo hi : Int}
    (hd : (d = .c128 ∧ p = 53 ∧ lo = -1074 ∧ hi = 971) ∨ (d = .c64 ∧ p = 24 ∧ lo = -149 ∧ hi = 104)) {h : Held Elem} (hw : h.view.WF)
    (hit : 0 < h.view.item) {n : Nat} (hs : h.view.shape = [n]) (hc : h.view.cFlag = true) (re im : Nat → Flt ℚ)
    (hg : ∀ i < n, h.nd.get [i] = .cpx (re i) (im i)) :
    (diffElems d h 0).shape = [n - 1] ∧ ∀ i, i + 1 < n → ∃ x y, (diffElems d h 0).at? [i] = some (.cpx x y) ∧
      IsArith p lo hi .sub (re (i + 1)) (re i) x ∧ IsArith p lo hi .sub (im (i + 1)) (im i) y := by
  have hax : 0 < h.view.shape.length := by simp [hs]
  obtain ⟨h1, h2⟩ := C20_diff_partial (diffTyped d) (diffVia d) (zeroElem d) 1 h.mem h.view hw hit 0 hax (Or.inr (le_refl _))
    (Or.inl ⟨by simp [hs], hc⟩)
  refine ⟨by rw [hs] at h2; exact h2, fun i hi' => ?_⟩
  have e : (diffElems d h 0).at? [i] = some (diffTyped d (h.nd.get [i + 1]) (h.nd.get [i])) :=
    h1.at? (idx := [i]) (show InShape (h.view.shape.set 0 (h.view.shape.getD 0 0 - 1)) [i] by
      rw [hs]; exact ⟨by show i < n - 1; omega, trivial⟩)
  rw [hg (i + 1) hi', hg i (by omega)] at e
  rcases hd with ⟨rfl, rfl, rfl, rfl⟩ | ⟨rfl, rfl, rfl, rfl⟩
  · exact ⟨_, _, e, kernel_isArith (by norm_num) (by norm_num) false (op := .sub) rfl (by simp) _ _,
      kernel_isArith (by norm_num) (by norm_num) false (op := .sub) rfl (by simp) _ _⟩
  · exact ⟨_, _, e, kernel_isArith (by norm_num) (by norm_num) false (op := .sub) rfl (by simp) _ _,
      kernel_isArith (by norm_num) (by norm_num) false (op := .sub) rfl (by simp) _ _⟩

/-- The hypotheses of `C124_complex_partial` hold of a vector of complex numbers. -/
example : let h := stored .c64 [2] [.cpx (.num 1) (.num 0), .cpx .nan (.num 5)]
    h.view.WF ∧ 0 < h.view.item ∧ h.view.shape = [2] ∧ h.view.cFlag = true ∧
      (∀ i < 2, h.nd.get [i] = .cpx (if i = 0 then .num 1 else .nan) (if i = 0 then .num 0 else .num 5)) ∧
      diffElems .c64 h 0 = ⟨[1], [.cpx .nan (.num 5)]⟩ :=
  ⟨View.WF.fresh _ _, by decide +kernel⟩

/-- C124 (partial): the first differences of an integer array of any dtype and layout are exact if the elements are at most 2 ^ 52 and the
differences fit in the dtype.  Missing: greater numbers and differences that do not fit (`C124_counterexample`). -/
theorem C124_integers_partial {d : DType} (hd : isIntegerKind d = true) {lo hi : Int} (hr : d.intRange = some (lo, hi)) {h : Held Elem}
    (hw : h.view.WF) (hit : 0 < h.view.item) {axis : Nat} (hax : axis < h.view.shape.length) (g : List Nat → Int)
    (hg : ∀ i, InShape h.view.shape i → h.nd.get i = .int (g i) ∧ (g i).natAbs ≤ 2 ^ 52)
    (hfit : ∀ i, InShape (h.view.shape.set axis (h.view.shape.getD axis 0 - 1)) i →
      lo ≤ g (nextAlong axis i) - g i ∧ g (nextAlong axis i) - g i ≤ hi) :
    (diffElems d h axis).shape = h.view.shape.set axis (h.view.shape.getD axis 0 - 1) ∧
      ∀ i, InShape (h.view.shape.set axis (h.view.shape.getD axis 0 - 1)) i →
        (diffElems d h axis).at? i = some (.int (g (nextAlong axis i) - g i)) := by
  obtain ⟨h1, sub, hsub, h2⟩ := diffElems_get d hw hit hax
  refine ⟨h1, fun i hi' => ?_⟩
  obtain ⟨i1, i2⟩ := nextAlong_in hax hi'
  obtain ⟨u1, u2⟩ := hg _ i2
  obtain ⟨v1, v2⟩ := hg _ i1
  obtain ⟨f1, f2⟩ := hfit i hi'
  have e := h2 i hi'
  rw [u1, v1] at e
  rw [e]
  generalize g (nextAlong axis i) = m at *
  generalize g i = n at *
  have via : diffVia d (.int m) (.int n) = .int (m - n) := by
    show writeF64 d (fltSub 53 (-1074) 971 (.num ((intToF64 m : Int) : ℚ)) (.num ((intToF64 n : Int) : ℚ))) = _
    rw [intToF64_exact (by omega), intToF64_exact (by omega)]
    have e : fltSub 53 (-1074) 971 (.num (m : ℚ)) (.num (n : ℚ)) = .num ((m - n : Int) : ℚ) := by
      show roundBin 53 (-1074) 971 ((m : ℚ) - n) = _
      have := roundBin_exact (isFloat_small (n := m - n) (by omega))
      rw [← this]
      push_cast
      rfl
    rw [e]
    exact writeF64_whole hd hr f1 f2
  have wrap : ∀ lo hi : Int, lo ≤ m - n → m - n ≤ hi → Rumpy.wrapTo lo hi (m - n) = m - n := by
    intro lo hi a b
    unfold Rumpy.wrapTo
    rw [Int.emod_eq_of_lt (by omega) (by omega)]
    omega
  have typed : diffTyped d (.int m) (.int n) = .int (m - n) := by
    cases d <;> first | exact via | (cases hr; exact congrArg Elem.int (wrap _ _ f1 f2))
  rcases hsub with rfl | rfl
  · rw [typed]
  · rw [via]

example : diffElems .f32 (stored .f32 [2, 2] [.flt (.num 1), .flt (.num 3), .flt (.num (1 / 2)), .flt .nan]) 1 = ⟨[2, 1], [.flt (.num 2), .flt .nan]⟩ ∧
    diffElems .i8 (stored .i8 [3] [.int 5, .int 2, .int 9]) 0 = ⟨[2], [.int (-3), .int 7]⟩ := by decide +kernel

/-- The hypotheses of `C124_integers_partial` hold of a matrix of int8. -/
example : let h := stored .i8 [2, 2] [.int 5, .int 2, .int 9, .int 9]
    let g : List Nat → Int := fun i => if i = [0, 0] then 5 else if i = [0, 1] then 2 else 9
    h.view.WF ∧ 0 < h.view.item ∧ (∀ i ∈ indices h.view.shape, h.nd.get i = .int (g i) ∧ (g i).natAbs ≤ 2 ^ 52) ∧
      (∀ i ∈ indices (h.view.shape.set 0 (h.view.shape.getD 0 0 - 1)), -128 ≤ g (nextAlong 0 i) - g i ∧ g (nextAlong 0 i) - g i ≤ 127) ∧
      diffElems .i8 h 0 = ⟨[1, 2], [.int 4, .int 7]⟩ :=
  ⟨View.WF.fresh _ _, by decide +kernel⟩

/-- The hypotheses of `C124_floats` hold of a vector of float32. -/
example : (stored .f32 [2] [.flt (.num 1), .flt .nan]).view.WF ∧ 0 < (stored .f32 [2] [.flt (.num 1), .flt .nan]).view.item ∧
    Typed .f32 (stored .f32 [2] [.flt (.num 1), .flt .nan]) := by
  refine ⟨View.WF.fresh _ _, by decide, fun i hi => ?_⟩
  have h : ∀ i ∈ indices [2], (stored .f32 [2] [.flt (.num 1), .flt .nan]).nd.get i = .flt (.num 1) ∨
      (stored .f32 [2] [.flt (.num 1), .flt .nan]).nd.get i = .flt .nan := by decide +kernel
  rcases h i (mem_indices.2 hi) with e | e <;> rw [e]
  · exact ⟨1, 0, by norm_num, by norm_num, by norm_num, by norm_num⟩
  · exact trivial

/-- C124 fails for complex arrays that are not contiguous vectors, whose differences are all zero; for int8, whose differences saturate at 127 where
NumPy wraps to -56; and for unsigned dtypes, where a step down wraps in a vector and gives 0 in a matrix. -/
theorem C124_counterexample :
    diffElems .c128 (stored .c128 [1, 2] [.cpx (.num 1) (.num 0), .cpx (.num 3) (.num 5)]) 1 = ⟨[1, 1], [.cpx (.num 0) (.num 0)]⟩ ∧
    diffElems .c128 (stored .c128 [2] [.cpx (.num 1) (.num 0), .cpx (.num 3) (.num 5)]) 0 = ⟨[1], [.cpx (.num 2) (.num 5)]⟩ ∧
    diffElems .i8 (stored .i8 [2] [.int (-100), .int 100]) 0 = ⟨[1], [.int 127]⟩ ∧
    diffElems .u8 (stored .u8 [2] [.int 1, .int 0]) 0 = ⟨[1], [.int 255]⟩ ∧
    diffElems .u8 (stored .u8 [1, 2] [.int 1, .int 0]) 1 = ⟨[1, 1], [.int 0]⟩ := by
  decide +kernel

end Props
