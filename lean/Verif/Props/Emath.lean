import Mathlib.Analysis.SpecialFunctions.Trigonometric.ComplexDeriv
import Verif.Lemmas.Emath
import Verif.Lemmas.Moments
import Verif.Props.Complex
/-!
# C86: emath
-/

namespace Props
open Spec Rumpy

/-- C86.  `emath.sqrt` of any real view: complex when some element is negative and real otherwise; every element is the
root of the element at its place. -/
theorem C86_sqrt (mem : Int → Option ℝ) (v : View) (hw : v.WF) :
    ((∃ i, InShape v.shape i ∧ ∃ x, (v.denote mem).get i = some x ∧ x < 0) →
      ∃ arr nd, emathSqrt mem v = .inr arr ∧ arr.Is nd ∧ MapsTo SqrtOf (v.denote mem) nd) ∧
    ((∀ i, InShape v.shape i → ∀ x, (v.denote mem).get i = some x → ¬x < 0) →
      ∃ arr nd, emathSqrt mem v = .inl arr ∧ arr.Is nd ∧ MapsTo (fun x (y : ℝ) => SqrtOf x (y : ℂ)) (v.denote mem) nd) := by
  refine withComplex_spec mem hw ?_ ?_
  · intro x hx
    have hx := not_lt.mp hx
    refine ⟨?_, Real.sqrt_nonneg x, le_refl _⟩
    rw [← Complex.ofReal_mul, Real.mul_self_sqrt hx]
  · intro x
    by_cases h0 : x = 0
    · subst h0
      have : ((0 : ℝ) : ℂ) ^ (1 / 2 : ℂ) = 0 := by
        rw [Complex.ofReal_zero, Complex.zero_cpow (by norm_num)]
      rw [this]
      exact ⟨by simp, le_refl _, le_refl _⟩
    · have hz : (x : ℂ) ≠ 0 := by exact_mod_cast h0
      have harg := arg_ofReal_nonneg x
      have hpi := Complex.arg_le_pi (x : ℂ)
      have him : (Complex.log x * (1 / 2)).im = Complex.arg (x : ℂ) / 2 := by
        have : Complex.log x * (1 / 2) = Complex.log x / 2 := by ring
        rw [this]
        simp [Complex.log_im]
      refine ⟨?_, ?_, ?_⟩
      · rw [Complex.cpow_def_of_ne_zero hz, ← Complex.exp_add]
        have : Complex.log x * (1 / 2) + Complex.log x * (1 / 2) = Complex.log x := by ring
        rw [this, Complex.exp_log hz]
      · rw [Complex.cpow_def_of_ne_zero hz, Complex.exp_re, him]
        exact mul_nonneg (Real.exp_pos _).le (Real.cos_nonneg_of_mem_Icc ⟨by linarith, by linarith⟩)
      · rw [Complex.cpow_def_of_ne_zero hz, Complex.exp_im, him]
        exact mul_nonneg (Real.exp_pos _).le (Real.sin_nonneg_of_nonneg_of_le_pi (by linarith) (by linarith))

/-- A view with a negative element, a NaN and a positive element. -/
example : ∃ i, InShape [3] i ∧ ∃ x : ℝ, ((⟨0, [3], [8], 8, true, true⟩ : View).denote
    (fun p => if p = 0 then some (4 : ℝ) else if p = 8 then none else some (-4))).get i = some x ∧ x < 0 :=
  ⟨[2], by decide, -4, by simp [View.denote, View.addr, byteOffset], by norm_num⟩

theorem logBase_real {b x : ℝ} (hb : 1 < b) (hx : ¬x < 0) : LogOf b x (Real.logb b x : ℂ) := by
  intro h0
  have hpos : 0 < x := lt_of_le_of_ne (not_lt.mp hx) (Ne.symm h0)
  refine ⟨?_, le_refl _, ?_⟩
  · rw [← Complex.ofReal_mul, ← Complex.ofReal_exp, Real.logb, div_mul_cancel₀ _ (Real.log_pos hb).ne', Real.exp_log hpos]
  · rw [Complex.ofReal_im, zero_mul]
    exact Real.pi_pos.le

theorem logBase_complex {b x : ℝ} (hb : 1 < b) : LogOf b x (Complex.log x / (Real.log b : ℝ)) := by
  intro h0
  have hl := Real.log_pos hb
  have hlc : ((Real.log b : ℝ) : ℂ) ≠ 0 := by exact_mod_cast hl.ne'
  have hz : (x : ℂ) ≠ 0 := by exact_mod_cast h0
  have him : (Complex.log x / (Real.log b : ℝ)).im = Complex.arg (x : ℂ) / Real.log b := by
    rw [Complex.div_ofReal_im, Complex.log_im]
  refine ⟨?_, ?_, ?_⟩
  · rw [div_mul_cancel₀ _ hlc, Complex.exp_log hz]
  · rw [him]
    exact div_nonneg (arg_ofReal_nonneg x) hl.le
  · rw [him, div_mul_cancel₀ _ hl.ne']
    exact Complex.arg_le_pi _

/-- C86.  `emath.log2` and `emath.log10`. -/
theorem C86_log_base (b : ℝ) (hb : 1 < b) (mem : Int → Option ℝ) (v : View) (hw : v.WF) :
    ((∃ i, InShape v.shape i ∧ ∃ x, (v.denote mem).get i = some x ∧ x < 0) →
      ∃ arr nd, emathLogBase b mem v = .inr arr ∧ arr.Is nd ∧ MapsTo (LogOf b) (v.denote mem) nd) ∧
    ((∀ i, InShape v.shape i → ∀ x, (v.denote mem).get i = some x → ¬x < 0) →
      ∃ arr nd, emathLogBase b mem v = .inl arr ∧ arr.Is nd ∧ MapsTo (fun x (y : ℝ) => LogOf b x (y : ℂ)) (v.denote mem) nd) :=
  withComplex_spec mem hw (fun _ hx => logBase_real hb hx) (fun _ => logBase_complex hb)

example : (1 : ℝ) < 2 ∧ (1 : ℝ) < 10 := by norm_num

/-- C86.  `emath.log`. -/
theorem C86_log (mem : Int → Option ℝ) (v : View) (hw : v.WF) :
    ((∃ i, InShape v.shape i ∧ ∃ x, (v.denote mem).get i = some x ∧ x < 0) →
      ∃ arr nd, emathLog mem v = .inr arr ∧ arr.Is nd ∧ MapsTo (LogOf (Real.exp 1)) (v.denote mem) nd) ∧
    ((∀ i, InShape v.shape i → ∀ x, (v.denote mem).get i = some x → ¬x < 0) →
      ∃ arr nd, emathLog mem v = .inl arr ∧ arr.Is nd ∧ MapsTo (fun x (y : ℝ) => LogOf (Real.exp 1) x (y : ℂ)) (v.denote mem) nd) := by
  have he : (1 : ℝ) < Real.exp 1 := Real.one_lt_exp_iff.mpr one_pos
  refine withComplex_spec mem hw ?_ ?_
  · intro x hx
    have := logBase_real he hx
    rwa [Real.logb, Real.log_exp, div_one] at this
  · intro x
    have := @logBase_complex _ x he
    rwa [Real.log_exp, Complex.ofReal_one, div_one] at this

theorem arcsin_cut (x : ℝ) : 0 ≤ (arcsinKernel (decide (0 ≤ x)) (x : ℂ)).im := by
  have hsb : SignBit (decide (0 ≤ x)) (-(2 * (x : ℂ).re * (x : ℂ).im)) := by
    constructor <;> intro h <;> simp at h
  obtain ⟨⟨hss, hsr⟩, hn, hp⟩ := C85_sqrt (decide (0 ≤ x)) ⟨1 - ((x : ℂ).re * (x : ℂ).re - (x : ℂ).im * (x : ℂ).im), -(2 * (x : ℂ).re * (x : ℂ).im)⟩ hsb
  unfold arcsinKernel
  dsimp only
  generalize numpySqrt (decide (0 ≤ x)) ⟨1 - ((x : ℂ).re * (x : ℂ).re - (x : ℂ).im * (x : ℂ).im), -(2 * (x : ℂ).re * (x : ℂ).im)⟩ = s at *
  have him : (-Complex.I * Complex.log (⟨-(x : ℂ).im, (x : ℂ).re⟩ + s)).im = -Real.log ‖(⟨-(x : ℂ).im, (x : ℂ).re⟩ + s : ℂ)‖ := by
    rw [← Complex.log_re]; simp
  rw [him]
  have h1 := congrArg Complex.re hss
  have h2 := congrArg Complex.im hss
  simp at h1 h2
  apply neg_nonneg.mpr
  apply Real.log_nonpos (norm_nonneg _)
  have hq : ‖(⟨-(x : ℂ).im, (x : ℂ).re⟩ + s : ℂ)‖ ^ 2 ≤ 1 := by
    rw [← Complex.normSq_eq_norm_sq, Complex.normSq_apply]
    simp
    have h3 : s.re * s.im = 0 := by linarith
    rcases mul_eq_zero.mp h3 with h | h
    · rw [h] at h1 ⊢
      rcases le_or_gt 0 x with hx | hx
      · have := hn (by simpa using hx)
        nlinarith [mul_nonneg hx (neg_nonneg.mpr this), mul_self_nonneg (x + s.im)]
      · have := hp (by simpa using hx)
        nlinarith [mul_nonneg (neg_nonneg.mpr hx.le) this]
    · rw [h] at h1 ⊢
      nlinarith
  have := norm_nonneg (⟨-(x : ℂ).im, (x : ℂ).re⟩ + s : ℂ)
  nlinarith

/-- C86.  `emath.arcsin`. -/
theorem C86_arcsin (mem : Int → Option ℝ) (v : View) (hw : v.WF) :
    ((∃ i, InShape v.shape i ∧ ∃ x, (v.denote mem).get i = some x ∧ (x < -1 ∨ 1 < x)) →
      ∃ arr nd, emathArcsin mem v = .inr arr ∧ arr.Is nd ∧ MapsTo ArcsinOf (v.denote mem) nd) ∧
    ((∀ i, InShape v.shape i → ∀ x, (v.denote mem).get i = some x → ¬(x < -1 ∨ 1 < x)) →
      ∃ arr nd, emathArcsin mem v = .inl arr ∧ arr.Is nd ∧ MapsTo (fun x (y : ℝ) => ArcsinOf x (y : ℂ)) (v.denote mem) nd) := by
  classical
  refine withComplex_spec mem hw ?_ ?_
  · intro x hx
    push Not at hx
    refine ⟨?_, ?_, le_refl _⟩
    · rw [← Complex.ofReal_sin, Real.sin_arcsin hx.1 hx.2]
    · exact abs_le.mpr ⟨by have := Real.neg_pi_div_two_le_arcsin x; simpa using this, by simpa using Real.arcsin_le_pi_div_two x⟩
  · intro x
    have hsb : SignBit (decide (0 ≤ x)) (-(2 * (x : ℂ).re * (x : ℂ).im)) := by
      constructor <;> intro h <;> simp at h
    obtain ⟨h1, h2⟩ := C85_arcsin _ _ hsb
    exact ⟨h1, h2, arcsin_cut x⟩

/-- C86.  `emath.arccos`. -/
theorem C86_arccos (mem : Int → Option ℝ) (v : View) (hw : v.WF) :
    ((∃ i, InShape v.shape i ∧ ∃ x, (v.denote mem).get i = some x ∧ (x < -1 ∨ 1 < x)) →
      ∃ arr nd, emathArccos mem v = .inr arr ∧ arr.Is nd ∧ MapsTo ArccosOf (v.denote mem) nd) ∧
    ((∀ i, InShape v.shape i → ∀ x, (v.denote mem).get i = some x → ¬(x < -1 ∨ 1 < x)) →
      ∃ arr nd, emathArccos mem v = .inl arr ∧ arr.Is nd ∧ MapsTo (fun x (y : ℝ) => ArccosOf x (y : ℂ)) (v.denote mem) nd) := by
  classical
  refine withComplex_spec mem hw ?_ ?_
  · intro x hx
    push Not at hx
    refine ⟨?_, Real.arccos_nonneg x, Real.arccos_le_pi x, le_refl _⟩
    rw [← Complex.ofReal_cos, Real.cos_arccos hx.1 hx.2]
  · intro x
    have hsb : SignBit (decide (0 ≤ x)) (-(2 * (x : ℂ).re * (x : ℂ).im)) := by
      constructor <;> intro h <;> simp at h
    obtain ⟨h1, h2, h3⟩ := C85_arccos _ _ hsb
    refine ⟨h1, h2, h3, ?_⟩
    have := arcsin_cut x
    show (arccosKernel (decide (0 ≤ x)) (x : ℂ)).im ≤ 0
    unfold arccosKernel
    rw [Complex.sub_im]
    show (0 : ℝ) - _ ≤ 0
    linarith

/-- C86.  `emath.arctanh`, when no element is 1 or -1. -/
theorem C86_arctanh_partial (mem : Int → Option ℝ) (v : View) (hw : v.WF)
    (hne : ∀ i, InShape v.shape i → ∀ x, (v.denote mem).get i = some x → |x| ≠ 1) :
    ((∃ i, InShape v.shape i ∧ ∃ x, (v.denote mem).get i = some x ∧ 1 < |x|) →
      ∃ arr nd, emathArctanh mem v = .inr arr ∧ arr.Is nd ∧ MapsTo ArctanhOf (v.denote mem) nd) ∧
    ((∀ i, InShape v.shape i → ∀ x, (v.denote mem).get i = some x → |x| ≤ 1) →
      ∃ arr nd, emathArctanh mem v = .inl arr ∧ arr.Is nd ∧ MapsTo (fun x (y : ℝ) => ArctanhOf x (y : ℂ)) (v.denote mem) nd) := by
  have key := withComplex_spec (p := fun x => x ≤ -1 ∨ 1 ≤ x) (fR := Real.artanh) (fC := arctanhKernel) (val := ArctanhOf) mem hw ?_ ?_
  · refine ⟨fun h => key.1 ?_, fun h => key.2 ?_⟩
    · obtain ⟨i, hi, x, hx, h1⟩ := h
      refine ⟨i, hi, x, hx, ?_⟩
      rcases lt_abs.mp h1 with h | h
      · exact Or.inr h.le
      · exact Or.inl (by linarith)
    · intro i hi x hx hp
      have h1 := h i hi x hx
      have h2 := lt_of_le_of_ne h1 (hne i hi x hx)
      have := abs_lt.mp h2
      rcases hp with h | h <;> linarith
  · intro x hx _
    push Not at hx
    refine ⟨?_, le_refl _, ?_⟩
    · rw [← Complex.ofReal_tanh, Real.tanh_artanh ⟨hx.1, hx.2⟩]
    · rw [Complex.ofReal_im]
      have := Real.pi_pos
      linarith
  · intro x hx
    have h1 : (x : ℂ) ≠ 1 := by
      intro h
      have : x = 1 := by exact_mod_cast h
      rw [this] at hx; simp at hx
    have h2 : (x : ℂ) ≠ -1 := by
      intro h
      have : x = -1 := by exact_mod_cast h
      rw [this] at hx; simp at hx
    obtain ⟨h3, h4⟩ := C85_arctanh x h1 h2
    refine ⟨h3, ?_, (abs_le.mp h4).2⟩
    unfold arctanhKernel
    dsimp only
    have hpi := Real.pi_pos
    split
    · linarith
    · rw [Complex.log_im]
      have : 0 ≤ Complex.arg ⟨((1 + (x : ℂ).re) * (1 - (x : ℂ).re) + (x : ℂ).im * -(x : ℂ).im) / ((1 - (x : ℂ).re) * (1 - (x : ℂ).re) + -(x : ℂ).im * -(x : ℂ).im),
          ((x : ℂ).im * (1 - (x : ℂ).re) - (1 + (x : ℂ).re) * -(x : ℂ).im) / ((1 - (x : ℂ).re) * (1 - (x : ℂ).re) + -(x : ℂ).im * -(x : ℂ).im)⟩ := by
        rw [Complex.arg_nonneg_iff]
        simp
      linarith

example : ∀ x : ℝ, x ∈ [(2 : ℝ), 1 / 2] → |x| ≠ 1 := by
  intro x hx
  simp only [List.mem_cons, List.not_mem_nil, or_false] at hx
  rcases hx with rfl | rfl
  · norm_num
  · rw [abs_of_pos (by norm_num)]; norm_num

/-- With an element equal to 1 the result is a complex array; in NumPy it is a real one (the element is infinite). -/
theorem C86_arctanh_counterexample : ∃ arr, emathArctanh (fun _ => some 1) ⟨0, [1], [8], 8, true, true⟩ = .inr arr := by
  unfold emathArctanh withComplex
  rw [if_pos]
  · exact ⟨_, rfl⟩
  · rw [hasValue_iff _ _ ⟨rfl, fun _ => by decide, fun _ => by decide⟩]
    exact ⟨[0], by decide, 1, rfl, Or.inr (le_refl _)⟩

/-- C86.  Complex arrays are mapped element by element. -/
theorem C86_complex (fC : ℂ → ℂ) (mem : Int → Option ℂ) (v : View) (hw : v.WF) :
    (ofComplex fC mem v).Is ⟨v.shape, fun i => ((v.denote mem).get i).map fC⟩ := mapOption_is fC mem hw

/-- C86.  The dtype of a complex result, except for arrays of 8-bit and 16-bit integers. -/
theorem C86_dtype_partial (a : DType) (h : a ≠ .i8 ∧ a ≠ .i16 ∧ a ≠ .u8 ∧ a ≠ .u16) : getComplexDtype a = emathComplex a := by
  cases a <;> first | rfl | exact absurd rfl h.1 | exact absurd rfl h.2.1 | exact absurd rfl h.2.2.1 | exact absurd rfl h.2.2.2

example : (DType.f16 ≠ .i8 ∧ DType.f16 ≠ .i16 ∧ DType.f16 ≠ .u8 ∧ DType.f16 ≠ .u16) := by decide

/-- `emath.sqrt` of an `int8` array is complex128 instead of complex64. -/
theorem C86_dtype_counterexample : getComplexDtype .i8 = .c128 ∧ emathComplex .i8 = .c64 := by decide

theorem log_of {x : ℝ} (h0 : x ≠ 0) : Complex.exp (Complex.log (x : ℂ)) = x ∧ 0 ≤ (Complex.log (x : ℂ)).im ∧ (Complex.log (x : ℂ)).im ≤ Real.pi := by
  refine ⟨Complex.exp_log (by exact_mod_cast h0), ?_, ?_⟩
  · rw [Complex.log_im]; exact arg_ofReal_nonneg x
  · rw [Complex.log_im]; exact Complex.arg_le_pi _

theorem log_ne_zero {n : ℝ} (h0 : n ≠ 0) (h1 : n ≠ 1) : Complex.log (n : ℂ) ≠ 0 := by
  intro h
  have := (log_of h0).1
  rw [h, Complex.exp_zero] at this
  exact h1 (by exact_mod_cast this.symm)

/-- C86.  `emath.logn`: complex when an element of either array is negative. -/
theorem C86_logn (item : Nat) (hi : 0 < item) (n x : Held (Option ℝ)) (hn : n.view.WF) (hx : x.view.WF) (out : List Nat)
    (ho : IsBroadcast x.view.shape n.view.shape out) :
    ((∃ h : Held (Option ℝ), (h = n ∨ h = x) ∧ ∃ i, InShape h.view.shape i ∧ ∃ x, h.nd.get i = some x ∧ x < 0) →
      ∃ arr nd, emathLogn item n x = some (.inr arr) ∧ arr.Is nd ∧ nd.shape = out ∧ ZipsTo (fun x n w => LognOf n x w) x.nd n.nd nd) ∧
    ((∀ h : Held (Option ℝ), (h = n ∨ h = x) → ∀ i, InShape h.view.shape i → ∀ x, h.nd.get i = some x → ¬x < 0) →
      ∃ arr nd, emathLogn item n x = some (.inl arr) ∧ arr.Is nd ∧ nd.shape = out ∧
        ZipsTo (fun x n (w : ℝ) => LognOf n x (w : ℂ)) x.nd n.nd nd) := by
  have hbx : BroadcastsTo x.view.shape out := (C09_broadcast_least _ _ _ ((C09_broadcast_shapes _ _ _).mpr ho)).1
  have hbn : BroadcastsTo n.view.shape out := (C09_broadcast_least _ _ _ ((C09_broadcast_shapes _ _ _).mpr ho)).2.1
  -- the quotient of two arrays of logarithms
  have quot : ∀ {K : Type} [Div K] (f : ℝ → K), ∃ r nd, binaryOp true divC (Held.of (mapUnaryFallback (Option.map f) x.mem x.view none) item none).mem
      (Held.of (mapUnaryFallback (Option.map f) n.mem n.view none) item none).mem
      (Held.of (mapUnaryFallback (Option.map f) x.mem x.view none) item none).view
      (Held.of (mapUnaryFallback (Option.map f) n.mem n.view none) item none).view none = some r ∧ r.Is nd ∧ nd.shape = out ∧
      ∀ i, InShape out i → nd.get i = divC (((x.nd.broadcast out).get i).map f) (((n.nd.broadcast out).get i).map f) := by
    intro K _ f
    have xs := mapOption_is f x.mem hx
    have ns := mapOption_is f n.mem hn
    have xsame := held_of_is xs hi none
    have nsame := held_of_is ns hi none
    have e1 : (Held.of (mapUnaryFallback (Option.map f) x.mem x.view none) item none).view.shape = x.view.shape := xsame.1
    have e2 : (Held.of (mapUnaryFallback (Option.map f) n.mem n.view none) item none).view.shape = n.view.shape := nsame.1
    obtain ⟨r, hr, his⟩ := binaryOp_is true divC (h := Held.of (mapUnaryFallback (Option.map f) x.mem x.view none) item none)
      (g := Held.of (mapUnaryFallback (Option.map f) n.mem n.view none) item none) (held_of_wf _ _ _) (held_of_wf _ _ _)
      (out := out) (by rw [e1, e2]; exact ho) none
    refine ⟨r, _, hr, his, rfl, fun i hin => ?_⟩
    have g1 : (((Held.of (mapUnaryFallback (Option.map f) x.mem x.view none) item none).nd).broadcast out).get i = ((x.nd.broadcast out).get i).map f := by
      have hb := inShape_broadcast hbx hin
      have := xsame.2 (List.zipWith (fun d i => if d = 1 then 0 else i) x.view.shape (i.drop (out.length - x.view.shape.length))) (by show InShape (Held.of (mapUnaryFallback (Option.map f) x.mem x.view none) item none).view.shape _; rw [e1]; exact hb)
      unfold Nd.broadcast
      dsimp only
      rw [show (Held.nd (Held.of (mapUnaryFallback (Option.map f) x.mem x.view none) item none)).shape = x.view.shape from e1]
      exact this
    have g2 : (((Held.of (mapUnaryFallback (Option.map f) n.mem n.view none) item none).nd).broadcast out).get i = ((n.nd.broadcast out).get i).map f := by
      have hb := inShape_broadcast hbn hin
      have := nsame.2 (List.zipWith (fun d i => if d = 1 then 0 else i) n.view.shape (i.drop (out.length - n.view.shape.length))) (by show InShape (Held.of (mapUnaryFallback (Option.map f) n.mem n.view none) item none).view.shape _; rw [e2]; exact hb)
      unfold Nd.broadcast
      dsimp only
      rw [show (Held.nd (Held.of (mapUnaryFallback (Option.map f) n.mem n.view none) item none)).shape = n.view.shape from e2]
      exact this
    show divC _ _ = _
    rw [g1, g2]
  constructor
  · rintro ⟨h, hh, i, hin, y, hy, hneg⟩
    unfold emathLogn
    rw [if_pos]
    · obtain ⟨r, nd, hr, his, hsh, hget⟩ := quot (fun x : ℝ => Complex.log (x : ℂ))
      refine ⟨r, nd, by dsimp only; rw [hr]; rfl, his, hsh, ?_⟩
      intro j hj
      rw [hsh] at hj ⊢
      rw [hget j hj]
      refine ⟨?_, ?_⟩
      · rintro (h | h)
        · rw [h]; rfl
        · rw [h]; cases (x.nd.broadcast out).get j <;> rfl
      · intro a b ha hb
        rw [ha, hb]
        refine ⟨_, rfl, ?_⟩
        intro hb0 ha0 hb1
        obtain ⟨p1, p2, p3⟩ := log_of ha0
        obtain ⟨q1, q2, q3⟩ := log_of hb0
        exact ⟨_, _, p1, p2, p3, q1, q2, q3, log_ne_zero hb0 hb1, rfl⟩
    · rcases hh with rfl | rfl
      · rw [Bool.or_eq_true]; left
        exact (hasValue_iff _ _ hn).mpr ⟨i, hin, y, hy, hneg⟩
      · rw [Bool.or_eq_true]; right
        exact (hasValue_iff _ _ hx).mpr ⟨i, hin, y, hy, hneg⟩
  · intro hall
    unfold emathLogn
    rw [if_neg]
    · obtain ⟨r, nd, hr, his, hsh, hget⟩ := quot Real.log
      refine ⟨r, nd, by dsimp only; rw [hr]; rfl, his, hsh, ?_⟩
      intro j hj
      rw [hsh] at hj ⊢
      rw [hget j hj]
      refine ⟨?_, ?_⟩
      · rintro (h | h)
        · rw [h]; rfl
        · rw [h]; cases (x.nd.broadcast out).get j <;> rfl
      · intro a b ha hb
        rw [ha, hb]
        refine ⟨_, rfl, ?_⟩
        intro hb0 ha0 hb1
        have an : 0 ≤ a := not_lt.mp (hall x (Or.inr rfl) _ (inShape_broadcast hbx hj) a ha)
        have bn : 0 ≤ b := not_lt.mp (hall n (Or.inl rfl) _ (inShape_broadcast hbn hj) b hb)
        obtain ⟨p1, p2, p3⟩ := log_of ha0
        obtain ⟨q1, q2, q3⟩ := log_of hb0
        refine ⟨_, _, p1, p2, p3, q1, q2, q3, log_ne_zero hb0 hb1, ?_⟩
        rw [← Complex.ofReal_log an, ← Complex.ofReal_log bn]
        push_cast
        rfl
    · rw [Bool.or_eq_true, hasValue_iff _ _ hn, hasValue_iff _ _ hx]
      rintro (⟨i, hin, y, hy, hneg⟩ | ⟨i, hin, y, hy, hneg⟩)
      · exact hall n (Or.inl rfl) i hin y hy hneg
      · exact hall x (Or.inr rfl) i hin y hy hneg

/-- Shapes of a matrix of numbers and one base per column. -/
example : IsBroadcast [2, 3] [3] [2, 3] := by rw [← C09_broadcast_shapes]; decide

/-- C86.  `emath.power`: complex when some base is negative and some exponent is not an integer, and otherwise real. -/
theorem C86_power (x p : Held (Option ℝ)) (hx : x.view.WF) (hp : p.view.WF) (out : List Nat)
    (ho : IsBroadcast x.view.shape p.view.shape out) :
    ((∃ i a, InShape x.view.shape i ∧ x.nd.get i = some a ∧ a < 0) ∧ (∃ i b, InShape p.view.shape i ∧ p.nd.get i = some b ∧ ∀ n : Int, b ≠ n) →
      ∃ arr nd, emathPower x p = some (.inr arr) ∧ arr.Is nd ∧ nd.shape = out ∧ ZipsTo PowerOf x.nd p.nd nd) ∧
    ((∀ i a, InShape x.view.shape i → x.nd.get i = some a → 0 ≤ a) ∨ (∀ i b, InShape p.view.shape i → p.nd.get i = some b → ∃ n : Int, b = n) →
      ∃ arr nd, emathPower x p = some (.inl arr) ∧ arr.Is nd ∧ nd.shape = out ∧ ZipsTo (fun x p (w : ℝ) => PowerOf x p (w : ℂ)) x.nd p.nd nd) := by
  have hbx : BroadcastsTo x.view.shape out := (C09_broadcast_least _ _ _ ((C09_broadcast_shapes _ _ _).mpr ho)).1
  have hbp : BroadcastsTo p.view.shape out := (C09_broadcast_least _ _ _ ((C09_broadcast_shapes _ _ _).mpr ho)).2.1
  have hint : ∀ b : ℝ, (b ≠ (⌊b⌋ : ℝ)) ↔ ∀ n : Int, b ≠ n := by
    intro b
    constructor
    · intro h n hn
      apply h
      rw [hn, Int.floor_intCast]
    · intro h; exact h _
  constructor
  · rintro ⟨⟨i, a, hi, ha, hneg⟩, ⟨j, b, hj, hb, hni⟩⟩
    unfold emathPower
    rw [if_pos]
    · obtain ⟨r, hr, his⟩ := binaryOp_is true powC hx hp ho none
      refine ⟨r, _, by rw [hr]; rfl, his, rfl, ?_⟩
      intro k hk
      dsimp only at hk ⊢
      refine ⟨?_, ?_⟩
      · rintro (h | h)
        · rw [h]; rfl
        · rw [h]; cases (x.nd.broadcast out).get k <;> rfl
      · intro a b ha hb
        rw [ha, hb]
        refine ⟨_, rfl, ?_⟩
        intro ha0
        obtain ⟨p1, p2, p3⟩ := log_of ha0
        refine ⟨_, p1, p2, p3, ?_⟩
        rw [Complex.cpow_def_of_ne_zero (by exact_mod_cast ha0), mul_comm]
    · unfold powerNeedsComplex
      have s1 : Rumpy.sizeOf x.view.shape ≠ 0 := by have := rank_lt hi; rw [← sizeOf_eq] at this; omega
      have s2 : Rumpy.sizeOf p.view.shape ≠ 0 := by have := rank_lt hj; rw [← sizeOf_eq] at this; omega
      rw [if_neg (by rintro (h | h) <;> contradiction)]
      rw [if_neg, hasValue_iff _ _ hp]
      · exact ⟨j, hj, b, hb, (hint b).mpr hni⟩
      · have := (hasValue_iff (fun x => x < 0) x.mem hx).mpr ⟨i, hi, a, ha, hneg⟩
        rw [this]; decide
  · intro h
    unfold emathPower
    rw [if_neg]
    · obtain ⟨r, hr, his⟩ := binaryOp_is true powR hx hp ho none
      refine ⟨r, _, by rw [hr]; rfl, his, rfl, ?_⟩
      intro k hk
      dsimp only at hk ⊢
      refine ⟨?_, ?_⟩
      · rintro (h | h)
        · rw [h]; rfl
        · rw [h]; cases (x.nd.broadcast out).get k <;> rfl
      · intro a b ha hb
        rw [ha, hb]
        dsimp only [powR]
        unfold realPow
        by_cases hb' : b = (⌊b⌋ : ℝ)
        · rw [if_pos hb']
          refine ⟨_, rfl, ?_⟩
          intro ha0
          obtain ⟨p1, p2, p3⟩ := log_of ha0
          refine ⟨_, p1, p2, p3, ?_⟩
          have hz : (a : ℂ) ≠ 0 := by exact_mod_cast ha0
          have : (b : ℂ) = ((⌊b⌋ : Int) : ℂ) := by
            conv_lhs => rw [hb']
            push_cast; rfl
          rw [this, mul_comm, ← Complex.cpow_def_of_ne_zero hz, Complex.cpow_intCast]
          push_cast; rfl
        · have han : 0 ≤ a := by
            rcases h with h | h
            · exact h _ a (inShape_broadcast hbx hk) ha
            · obtain ⟨n, hn⟩ := h _ b (inShape_broadcast hbp hk) hb
              exact absurd hn ((hint b).mp hb' n)
          rw [if_neg hb', if_pos han]
          refine ⟨_, rfl, ?_⟩
          intro ha0
          obtain ⟨p1, p2, p3⟩ := log_of ha0
          refine ⟨_, p1, p2, p3, ?_⟩
          have hz : (a : ℂ) ≠ 0 := by exact_mod_cast ha0
          rw [Complex.ofReal_cpow han, Complex.cpow_def_of_ne_zero hz, mul_comm]
    · unfold powerNeedsComplex
      split
      · decide
      · split
        · decide
        · next h1 h2 =>
          rw [hasValue_iff _ _ hp]
          rintro ⟨j, hj, b, hb, hnb⟩
          simp only [Bool.not_eq_true', Bool.not_eq_false] at h2
          obtain ⟨i, hi, a, ha, hneg⟩ := (hasValue_iff _ _ hx).mp h2
          rcases h with h | h
          · exact absurd (h i a hi ha) (not_le.mpr hneg)
          · obtain ⟨n, hn⟩ := h j b hj hb
            exact (hint b).mp hnb n hn

end Props
