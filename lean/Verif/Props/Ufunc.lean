import Verif.Spec.Ufunc
import Verif.Model.Ufunc
import Verif.Lemmas.Ufunc
import Verif.Props.Cast
import Verif.Props.FloatOps
/-!
# C95: functions of one array
-/

namespace Props
open Spec Rumpy

/-! ### The dtype of the result -/

/-- Where the code does not follow NumPy's dtypes (see the counterexamples). -/
def Lacks (f : MathFn) (d : DType) : Prop :=
  (f ∈ [.exp2, .expm1, .log1p, .cbrt, .rint, .arcsinh, .arccosh, .arctanh] ∧ d.format = none) ∨
    (f ∈ [.isreal, .iscomplex] ∧ d ≠ .bool) ∨ (f = .abs ∧ (d = .c64 ∨ d = .c128)) ∨ (f ∈ [.square, .reciprocal] ∧ d = .bool)

instance (f : MathFn) (d : DType) : Decidable (Lacks f d) := by unfold Lacks; infer_instance

/-- The dtype the code works in. -/
def workType (f : MathFn) (d : DType) : DType :=
  if isTranscendental f && !(DType.isFloat d || DType.isComplex d) then floatTarget d else d

theorem workType_spec {f : MathFn} {d t : DType} (hd : d.Numeric) (ht : mathType f d = some t) (hl : ¬ Lacks f d) :
    storedType f (workType f d) = t ∧ (DType.isComplex (workType f d) = false ∨ (f ≠ .floor ∧ f ≠ .ceil)) := by
  have key : mathType f d = none ∨ Lacks f d ∨ (mathType f d = some (storedType f (workType f d)) ∧
      (DType.isComplex (workType f d) = false ∨ (f ≠ .floor ∧ f ≠ .ceil))) := by
    cases d <;> first | exact hd.elim | (cases f <;> decide)
  rcases key with h | h | ⟨h1, h2⟩
  · rw [ht] at h; cases h
  · exact absurd h hl
  · rw [ht] at h1
    injection h1 with h1
    exact ⟨h1.symm, h2⟩

/-- `mathOp` is `mathDirect` of an array of the working dtype. -/
theorem mathOp_eq (checked : Bool) (lib : Libm) (neg : Bool) (f : MathFn) (d : DType) (h : Held Elem) (hw : h.view.WF) (hd : d.Numeric) :
    ∃ g : Held Elem, mathOp checked lib neg f d h = mathDirect checked lib neg f (workType f d) g ∧ g.view.WF ∧
      g.view.shape = h.view.shape ∧ ∀ i, InShape h.view.shape i →
        g.nd.get i = if workType f d = d then h.nd.get i else castElem d (workType f d) (h.nd.get i) := by
  unfold mathOp workType
  by_cases hc : (isTranscendental f && !(DType.isFloat d || DType.isComplex d)) = true
  · rw [if_pos hc, if_pos hc]
    have hne : floatTarget d ≠ d := by
      intro he
      simp only [Bool.and_eq_true, Bool.not_eq_true', Bool.or_eq_false_iff] at hc
      have := hc.2.1
      revert he this
      cases d <;> first | exact hd.elim | decide
    have hnt : bothTime d (floatTarget d) = false := by
      cases d <;> first | exact hd.elim | decide
    have his := C70_elementwise d (floatTarget d) h hw (by
      rintro (h1 | h1)
      · exact absurd h1.symm hne
      · rw [hnt] at h1; cases h1)
    have hsz : 0 < DType.itemsize (floatTarget d) := by
      unfold floatTarget; split
      · decide
      · split <;> decide
    have hden := his.denote hsz (zeroElem (floatTarget d))
    refine ⟨_, rfl, View.WF.fresh _ _, his.1, fun i hi => ?_⟩
    rw [if_neg hne]
    exact hden.2 i (by rw [hden.1]; exact hi)
  · rw [if_neg hc, if_neg hc]
    exact ⟨h, rfl, hw, rfl, fun i _ => by rw [if_pos rfl]⟩

/-- C95: the result has the shape of the array and the dtype NumPy gives it: the trigonometric, hyperbolic, exponential and
logarithmic functions the smallest sufficient float dtype, the arithmetic ones the dtype of the array, the tests bool.  Missing:
the cases in `Lacks`. -/
theorem C95_result_type_partial (lib : Libm) (neg : Bool) {f : MathFn} {d t : DType} (hd : d.Numeric) (ht : mathType f d = some t)
    (hl : ¬ Lacks f d) (h : Held Elem) (hw : h.view.WF) :
    ∃ arr, mathOp false lib neg f d h = .ok (t, arr) ∧ arr.shape = h.view.shape := by
  obtain ⟨g, hg, gw, gs, -⟩ := mathOp_eq false lib neg f d h hw hd
  obtain ⟨h1, h2⟩ := workType_spec hd ht hl
  obtain ⟨arr, ha, hi⟩ := mathDirect_ok false lib neg f (workType f d) g gw h2 (fun h => by cases h)
  refine ⟨arr, ?_, hi.1.trans gs⟩
  rw [hg, ha, h1]

example : mathType .sin .i8 = some .f16 ∧ mathType .sqrt .u16 = some .f32 ∧ mathType .exp .i64 = some .f64 ∧
    mathType .square .u8 = some .u8 ∧ mathType .isnan .i32 = some .bool ∧ mathType .abs .c64 = some .f32 ∧
    ¬ Lacks .sin .i8 ∧ ¬ Lacks .square .u8 := by decide

/-! ### Values of the float functions -/

/-- `y` is the library function `f` of `r` computed in a float dtype; in `float16` it is the value in single precision rounded
to the nearest. -/
def Computed (lib : Libm) (f : MathFn) : DType → Flt ℚ → Flt ℚ → Prop
  | .f64, r, y => y = lib.double f r
  | .f32, r, y => y = lib.single f r
  | .f16, r, y => IsRounding 11 (-24) 5 (lib.single f r) y
  | _, _, _ => False

theorem cast_rounds {d : DType} (hd : d.Real) (hf : DType.isFloat d = false) {x : Elem} (hx : x.OfType d) {p : Nat} {lo hi : Int}
    (hfm : (floatTarget d).format = some (p, lo, hi)) :
    ∃ u r, x.parts = some (u, .num 0) ∧ castElem d (floatTarget d) x = .flt r ∧ IsRounding p lo hi u r := by
  have hne : d ≠ floatTarget d := by
    intro he
    revert he hf
    cases d <;> first | exact hd.elim | decide
  have hcast := castElem_real hd hne x
  cases x with
  | bool b =>
    refine ⟨_, toFormat p lo hi (.num (if b then 1 else 0)), rfl, ?_, ?_⟩
    · cases d <;> first | exact hd.elim | exact hx.elim | skip
      cases hfm
      rfl
    · cases d <;> first | exact hd.elim | exact hx.elim | skip
      cases hfm
      exact toFormat_rounding (by norm_num) (by norm_num) _
  | int n =>
    refine ⟨.num n, ?_⟩
    have hr : ∃ lo hi, d.intRange = some (lo, hi) ∧ lo ≤ n ∧ n ≤ hi := by
      cases d <;> first | exact hd.elim | exact hx
    obtain ⟨l, g, hr, h1, h2⟩ := hr
    by_cases hw : n.natAbs ≤ 2 ^ 53
    · have e := intToF64_exact hw
      refine ⟨toFormat p lo hi (.num n), rfl, ?_, ?_⟩
      · rw [hcast]
        have : readF64 (.int n) = some (.num (n : ℚ)) := by
          show some (Flt.num ((intToF64 n : Int) : ℚ)) = _
          rw [e]
        rw [this, Option.getD_some]
        cases d <;> first | exact hd.elim | (cases hr; done) | (cases hfm; rfl) | skip
        all_goals
          cases hfm
          have hx' := roundBin_exact (p := 53) (lo := -1074) (hi := 971) (x := (n : ℚ))
          rw [show toFormat 53 (-1074) 971 (.num (n : ℚ)) = roundBin 53 (-1074) 971 n from rfl]
          rw [intToF64_round (by omega), e]
          rfl
      · cases d <;> first | exact hd.elim | (cases hr; done) | skip
        all_goals
          cases hfm
          exact toFormat_rounding (by norm_num) (by norm_num) _
    · have h64 : floatTarget d = .f64 := by
        cases d <;> first | exact hd.elim | rfl | (exfalso; cases hr; omega) | (exfalso; cases hr; done)
      rw [h64] at hfm hcast ⊢
      cases hfm
      have hlt : n.natAbs < 2 ^ 65 := by
        cases d <;> simp only [DType.intRange, Option.some.injEq, Prod.mk.injEq, reduceCtorEq] at hr <;> omega
      refine ⟨.num (intToF64 n : ℚ), rfl, by rw [hcast]; rfl, ?_⟩
      have := toFormat_rounding (p := 53) (lo := -1074) (hi := 971) (by norm_num) (by norm_num) (.num (n : ℚ))
      rw [show toFormat 53 (-1074) 971 (.num (n : ℚ)) = _ from intToF64_round hlt] at this
      exact this
  | flt v => cases d <;> first | exact hd.elim | (cases hf; done) | (obtain ⟨_, _, h, _⟩ := hx; cases h; done) | exact hx.elim
  | cpx v w => cases d <;> first | exact hd.elim | exact hx.elim
  | text s => cases d <;> first | exact hd.elim | exact hx.elim

theorem mathPanics_float (f : MathFn) {d : DType} (h : DType.isFloat d = true) (x : Elem) : mathPanics f d x = false := by
  cases d <;> first | (cases h; done) | skip
  all_goals cases x <;> rfl

/-- C95: `sin`, `exp`, `log`, `sqrt` and the other fourteen functions the code knows to be fractional of an array of bools,
integers or floats, and all float functions of a float array: every element is the library function, in the float dtype NumPy
would use, of the number rounded to that dtype.  (Missing: `exp2`, `expm1`, `log1p`, `cbrt`, `arcsinh`, `arccosh` and `arctanh` of
bools and integers, see `C95_integer_counterexample`; `rint`, see C93; the accuracy of the library.) -/
theorem C95_functions_partial (checked : Bool) (lib : Libm) (neg : Bool) {f : MathFn} {d t : DType} (hf : f.floating = true)
    (hr : f ≠ .rint) (hd : d.Real) (hc : d.format ≠ none ∨ f ∉ [.exp2, .expm1, .log1p, .cbrt, .arcsinh, .arccosh, .arctanh])
    (ht : d.floatOf = some t) {p : Nat} {lo hi : Int} (hfm : t.format = some (p, lo, hi)) (h : Held Elem) (hw : h.view.WF)
    (hx : ∀ i, InShape h.view.shape i → (h.nd.get i).OfType d) :
    ∃ arr, mathOp checked lib neg f d h = .ok (t, arr) ∧ arr.shape = h.view.shape ∧
      ∀ i, InShape h.view.shape i → ∃ u r y, (h.nd.get i).parts = some (u, .num 0) ∧ IsRounding p lo hi u r ∧
        arr.at? i = some (.flt y) ∧ Computed lib f t r y := by
  have hnum : d.Numeric := by cases d <;> first | exact hd.elim | trivial
  have hwt : workType f d = t ∧ (DType.isFloat d = true ∧ d = t ∨ DType.isFloat d = false ∧ t = floatTarget d ∧ t ≠ d) ∧
      DType.isFloat t = true := by
    revert hr hc hf ht
    cases d <;> first | exact hd.elim | (simp only [DType.floatOf, Option.some.injEq]; rintro hr hc hf rfl; revert hr hc hf; cases f <;> decide)
  obtain ⟨ht1, ht2, ht3⟩ := hwt
  obtain ⟨g, hg, gw, gs, gn⟩ := mathOp_eq checked lib neg f d h hw hnum
  rw [ht1] at hg gn
  obtain ⟨arr, ha, his⟩ := mathDirect_ok checked lib neg f t g gw
    (Or.inl (by cases t <;> first | rfl | (cases ht3; done))) (fun _ i _ => mathPanics_float f ht3 _)
  have hst : storedType f t = t ∧ handles (kernelGroup f) t = true ∧ kernelGroup f ≠ .predicate ∧ kernelGroup f = .float := by
    have hk : kernelGroup f = .float := by revert hf; cases f <;> decide
    refine ⟨by unfold storedType; rw [hk]; simp, ?_, by rw [hk]; decide, hk⟩
    rw [hk]
    show (DType.isFloat t || DType.isComplex t) = true
    rw [ht3]; rfl
  obtain ⟨s1, s2, s3, s4⟩ := hst
  refine ⟨arr, by rw [hg, ha, s1], his.1.trans gs, fun i hi => ?_⟩
  have hel : ∀ r : Flt ℚ, ∃ y, mathElem lib neg f t (.flt r) = .flt y ∧ Computed lib f t r y := by
    intro r
    unfold mathElem
    rw [if_pos s2]
    unfold kernelElem
    rw [if_neg s3]
    have hl : ∀ (p : Nat) (lo hi : Int) (l : MathFn → Flt ℚ → Flt ℚ), floatFn p lo hi l neg f r = l f r := by
      intro p lo hi l
      revert hf hr
      cases f <;> first | (intro hf; cases hf; done) | (intro hf hr; exact absurd rfl hr) | (intro _ _; rfl)
    have hh : ∀ (l : MathFn → Flt ℚ → Flt ℚ), halfFn l neg f r = toFormat 11 (-24) 5 (l f r) := by
      intro l
      have : halfFn l neg f r = toFormat 11 (-24) 5 (floatFn 24 (-149) 104 l neg f r) := by
        revert hf
        cases f <;> first | (intro hf; cases hf; done) | (intro _; rfl)
      rw [this, hl]
    cases t <;> first | (cases ht3; done) | skip
    · exact ⟨_, rfl, by rw [hh]; exact toFormat_rounding (by norm_num) (by norm_num) _⟩
    · exact ⟨_, rfl, hl _ _ _ _⟩
    · exact ⟨_, rfl, hl _ _ _ _⟩
  have hat := his.at? (idx := i) (by show InShape g.view.shape i; rw [gs]; exact hi)
  dsimp only at hat
  rw [gn i hi] at hat
  rcases ht2 with ⟨hF, rfl⟩ | ⟨hF, he, hne⟩
  · rw [if_pos rfl] at hat
    have hxi := hx i hi
    cases hv : h.nd.get i with
    | flt r =>
      rw [hv] at hat hxi
      obtain ⟨y, hy, hcm⟩ := hel r
      rw [hy] at hat
      refine ⟨r, r, y, rfl, isRounding_self ?_, hat, hcm⟩
      cases d <;> first | (cases hF; done) | (cases hfm; exact hxi)
    | _ =>
      rw [hv] at hxi
      exfalso
      revert hxi
      cases d <;> first | (cases hF; done) | (intro hxi; first | exact hxi.elim | (obtain ⟨_, _, h, _⟩ := hxi; cases h))
  · rw [if_neg hne] at hat
    subst he
    obtain ⟨u, r, hp, hcst, hrd⟩ := cast_rounds hd hF (hx i hi) hfm
    rw [hcst] at hat
    obtain ⟨y, hy, hcm⟩ := hel r
    rw [hy] at hat
    exact ⟨u, r, y, hp, hrd, hat, hcm⟩

/-- The elements 1, 2 and 3 of a buffer of bytes read backwards. -/
def mathCase : Held Elem := ⟨fun a => .int (a + 1), ⟨2, [3], [-1], 1, false, false⟩⟩

theorem mathCase_wf : mathCase.view.WF := ⟨rfl, fun h => (nomatch h), fun h => (nomatch h)⟩

example : DType.floatOf .i8 = some .f16 ∧ mathCase.nd.toList = [.int 3, .int 2, .int 1] ∧
    ∀ i, InShape [3] i → (mathCase.nd.get i).OfType .i8 := by
  refine ⟨rfl, by decide, fun i hi => ?_⟩
  have h := mem_indices.2 hi
  have e : indices [3] = [[0], [1], [2]] := by decide
  rw [e] at h
  simp only [List.mem_cons, List.not_mem_nil, or_false] at h
  rcases h with rfl | rfl | rfl <;> exact ⟨-2 ^ 7, 2 ^ 7 - 1, rfl, by decide, by decide⟩

/-! ### Whole numbers -/

theorem wrapTo_congr {lo hi : Int} (h : lo ≤ hi) (n : Int) :
    lo ≤ wrapTo lo hi n ∧ wrapTo lo hi n ≤ hi ∧ (hi - lo + 1) ∣ wrapTo lo hi n - n := by
  unfold wrapTo
  have h1 := Int.emod_nonneg (n - lo) (show hi - lo + 1 ≠ 0 by omega)
  have h2 := Int.emod_lt_of_pos (n - lo) (show 0 < hi - lo + 1 by omega)
  refine ⟨by omega, by omega, ?_⟩
  have h3 : lo + (n - lo) % (hi - lo + 1) - n = -((n - lo) - (n - lo) % (hi - lo + 1)) := by ring
  rw [h3, Int.dvd_neg]
  exact Int.dvd_self_sub_emod

/-- C95: negation, absolute value, square, sign, unary plus, floor, ceiling and truncation of an integer array are exact modulo
the number of values of the dtype, and so exact whenever the result fits.  In a build with overflow checks this holds as long as
no absolute value is taken of the least number of a signed dtype. -/
theorem C95_integers (checked : Bool) (lib : Libm) (neg : Bool) {f : MathFn} {d : DType} {w : Int → Int} (hf : f.whole = some w)
    (hd : d.Numeric) {lo hi : Int} (hr : d.intRange = some (lo, hi)) (h : Held Elem) (hw : h.view.WF)
    (hc : checked = true → f = .abs → lo < 0 → ∀ i, InShape h.view.shape i → h.nd.get i ≠ .int lo) :
    ∃ arr, mathOp checked lib neg f d h = .ok (d, arr) ∧ arr.shape = h.view.shape ∧
      ∀ i n, InShape h.view.shape i → h.nd.get i = .int n → lo ≤ n → n ≤ hi →
        ∃ m, arr.at? i = some (.int m) ∧ lo ≤ m ∧ m ≤ hi ∧ (hi - lo + 1) ∣ m - w n := by
  have hkind : (DType.isSigned d = true ∧ lo < 0 ∧ 0 < hi ∧ lo = -hi - 1) ∨ (DType.isUnsigned d = true ∧ lo = 0 ∧ 0 < hi) := by
    cases d <;> first | exact hd.elim | (cases hr; done) | (cases hr; decide)
  have hwt : workType f d = d := by
    have : isTranscendental f = false := by revert hf; cases f <;> first | (intro hf; cases hf; done) | (intro _; rfl)
    unfold workType; rw [this]; rfl
  have hcx : DType.isComplex d = false := by
    cases d <;> first | rfl | (cases hr; done)
  have hst : storedType f d = d := by
    have : kernelGroup f ≠ .predicate := by revert hf; cases f <;> first | (intro hf; cases hf; done) | (intro _; decide)
    unfold storedType; simp [this]
  obtain ⟨g, hg, gw, gs, gn⟩ := mathOp_eq checked lib neg f d h hw hd
  rw [hwt] at hg gn
  obtain ⟨arr, ha, his⟩ := mathDirect_ok checked lib neg f d g gw (Or.inl hcx) (by
    intro hch i hi'
    rw [gs] at hi'
    rw [gn i hi', if_pos rfl]
    cases hv : h.nd.get i with
    | int n =>
      unfold mathPanics
      rw [hr]
      dsimp only
      by_cases hfa : f = .abs
      · subst hfa
        rcases hkind with ⟨-, h0, -, -⟩ | ⟨-, h0, -⟩
        · have hne : n ≠ lo := by
            rintro rfl
            exact hc hch rfl h0 i hi' hv
          simp [hne]
        · simp [h0]
      · rcases hkind with ⟨hs, -, -, -⟩ | ⟨-, h0, -⟩
        · simp [hfa, hs]
        · simp [h0]
    | _ => rfl)
  refine ⟨arr, by rw [hg, ha, hst], his.1.trans gs, fun i n hi' hv h1 h2 => ?_⟩
  have hat := his.at? (idx := i) (by show InShape g.view.shape i; rw [gs]; exact hi')
  dsimp only at hat
  rw [gn i hi', if_pos rfl, hv] at hat
  have hk : mathElem lib neg f d (.int n) = .int (if f = .neg ∨ f = .abs ∨ f = .square ∨ f = .sign ∨ f = .positive then intFn lo hi f n
      else intTrait1 lib lo hi f n) := by
    cases d <;> first | exact hd.elim | (cases hr; done) | skip
    all_goals
      cases hr
      revert hf
      cases f <;> first | (intro hf; cases hf; done) | (intro _; rfl)
  rw [hk] at hat
  refine ⟨_, hat, ?_⟩
  have key : ∀ m, m = wrapTo lo hi (w n) → lo ≤ m ∧ m ≤ hi ∧ (hi - lo + 1) ∣ m - w n := by
    rintro m rfl
    exact wrapTo_congr (by omega) _
  have triv : ∀ m, m = w n → lo ≤ m → m ≤ hi → lo ≤ m ∧ m ≤ hi ∧ (hi - lo + 1) ∣ m - w n := by
    rintro m rfl b1 b2
    exact ⟨b1, b2, by simp⟩
  cases f <;> first | (cases hf; done) | (cases hf; exact triv n rfl h1 h2) | (cases hf; exact key _ rfl) | skip
  · cases hf
    rcases hkind with ⟨-, h0, -, -⟩ | ⟨-, h0, -⟩
    · refine key _ ?_
      show (if lo < 0 then wrapTo lo hi |n| else n) = _
      rw [if_pos h0]
    · subst h0
      refine triv n ?_ h1 h2
      show n = |n|
      rw [abs_of_nonneg h1]
  · cases hf
    rcases hkind with ⟨-, h0, h3, h4⟩ | ⟨-, h0, h3⟩
    · refine triv _ ?_ ?_ ?_
      · show (if lo < 0 then Int.sign n else _) = _
        rw [if_pos h0]
      · show lo ≤ (if lo < 0 then Int.sign n else _)
        rw [if_pos h0]
        rcases lt_trichotomy n 0 with h | h | h
        · rw [Int.sign_eq_neg_one_of_neg h]; omega
        · rw [h]; simp; omega
        · rw [Int.sign_eq_one_of_pos h]; omega
      · show (if lo < 0 then Int.sign n else _) ≤ hi
        rw [if_pos h0]
        rcases lt_trichotomy n 0 with h | h | h
        · rw [Int.sign_eq_neg_one_of_neg h]; omega
        · rw [h]; simp; omega
        · rw [Int.sign_eq_one_of_pos h]; omega
    · subst h0
      refine triv _ ?_ ?_ ?_
      · show (if (0 : Int) < 0 then Int.sign n else if 0 < n then 1 else 0) = Int.sign n
        rw [if_neg (lt_irrefl _)]
        split
        · next h => rw [Int.sign_eq_one_of_pos h]
        · next h => rw [show n = 0 by omega]; rfl
      · show 0 ≤ (if (0 : Int) < 0 then Int.sign n else if 0 < n then 1 else 0)
        rw [if_neg (lt_irrefl _)]
        split <;> omega
      · show (if (0 : Int) < 0 then Int.sign n else if 0 < n then 1 else 0) ≤ hi
        rw [if_neg (lt_irrefl _)]
        split <;> omega

/-- In a build with overflow checks the absolute value of the least number of a signed dtype panics; otherwise it stays negative,
as in NumPy. -/
theorem C95_abs_panics (lib : Libm) (neg : Bool) {d : DType} (hd : DType.isSigned d = true) {lo hi : Int} (hr : d.intRange = some (lo, hi))
    (h : Held Elem) (hw : h.view.WF) {i : List Nat} (hi' : InShape h.view.shape i) (hv : h.nd.get i = .int lo) :
    mathOp true lib neg .abs d h = .panic := by
  have h0 : lo < 0 := by cases d <;> first | (cases hd; done) | (cases hr; decide)
  have hcx : DType.isComplex d = false := by cases d <;> first | rfl | (cases hd; done)
  unfold mathOp
  rw [if_neg (by show ¬ ((false && _) = true); simp)]
  unfold mathDirect
  rw [if_neg (by rw [hcx]; simp), if_pos]
  rw [Bool.true_and, List.any_eq_true]
  refine ⟨h.view.addr i, ?_, ?_⟩
  · rw [addrs_eq hw]
    exact List.mem_map.2 ⟨i, mem_indices.2 hi', rfl⟩
  · have hn : h.nd.get i = h.mem (h.view.addr i) := rfl
    rw [← hn, hv]
    unfold mathPanics
    rw [hr]
    simp [h0]

example : MathFn.whole .abs = some (fun n => |n|) ∧ (mathOp false ⟨fun _ x => x, fun _ x => x, fun _ x y => (x, y)⟩ false .abs .i8
    (oneElem .i8 (.int (-2 ^ 7)))) = .ok (.i8, ⟨[1], [.int (-2 ^ 7)]⟩) := ⟨rfl, by decide +kernel⟩

/-! ### Floats -/

/-- Every function of a float array works element by element and keeps the dtype, but for the tests. -/
theorem mathOp_float (checked : Bool) (lib : Libm) (neg : Bool) (f : MathFn) {d : DType} (hd : DType.isFloat d = true) (h : Held Elem)
    (hw : h.view.WF) : ∃ arr, mathOp checked lib neg f d h = .ok (storedType f d, arr) ∧ arr.shape = h.view.shape ∧
      ∀ i, InShape h.view.shape i → arr.at? i = some (mathElem lib neg f d (h.nd.get i)) := by
  have hnum : d.Numeric := by cases d <;> first | trivial | (cases hd; done)
  obtain ⟨arr, ha, his⟩ := mathDirect_ok checked lib neg f d h hw
    (Or.inl (by cases d <;> first | rfl | (cases hd; done))) (fun _ i _ => mathPanics_float f hd _)
  refine ⟨arr, ?_, his.1, fun i hi => his.at? (idx := i) hi⟩
  unfold mathOp
  rw [if_neg (by rw [hd]; simp), ha]

theorem exactAt_is {f : MathFn} {g : ℚ → ℚ} (hf : f.exactAt = some g) (p : Nat) (lo hi : Int) (lib : MathFn → Flt ℚ → Flt ℚ) (neg : Bool) :
    (∀ q, floatFn p lo hi lib neg f (.num q) = .num (g q)) ∧ floatFn p lo hi lib neg f .nan = .nan ∧
      floatFn p lo hi lib neg f .posInf = f.atInf ∧ floatFn p lo hi lib neg f .negInf = f.atNegInf := by
  cases f <;> first | (cases hf; done) | (cases hf; exact ⟨fun _ => rfl, rfl, rfl, rfl⟩) | skip
  cases hf
  exact ⟨fun q => C93_sign (.num q), C93_sign .nan, C93_sign .posInf, C93_sign .negInf⟩

theorem exactAt_float {f : MathFn} {g : ℚ → ℚ} (hf : f.exactAt = some g) {q : ℚ} (h : IsFloat 11 (-24) 5 q) : IsFloat 11 (-24) 5 (g q) := by
  have one : IsFloat 11 (-24) 5 1 := ⟨1, 0, by norm_num, by norm_num, by norm_num, by norm_num⟩
  cases f <;> first | (cases hf; done) | (cases hf; exact h) | skip
  · cases hf; exact isFloat_neg h
  · cases hf
    show IsFloat 11 (-24) 5 |q|
    rcases abs_choice q with e | e
    · rw [e]; exact h
    · rw [e]; exact isFloat_neg h
  · cases hf; exact isFloat_whole h (by norm_num) (by norm_num) (by norm_num) (Or.inl rfl)
  · cases hf; exact isFloat_whole h (by norm_num) (by norm_num) (by norm_num) (Or.inr rfl)
  · cases hf
    show IsFloat 11 (-24) 5 (if 0 < q then 1 else if q < 0 then -1 else 0)
    split
    · exact one
    · split
      · exact isFloat_neg one
      · exact isFloat_nought 11 (by norm_num)
  · cases hf
    refine isFloat_whole h (by norm_num) (by norm_num) (by norm_num) ?_
    split
    · exact Or.inl rfl
    · exact Or.inr rfl

/-- C95: negation, absolute value, floor, ceiling, truncation, sign and unary plus of a float array of any of the three formats are
exact; NaN stays NaN and the infinities go where they should. -/
theorem C95_float_exact (checked : Bool) (lib : Libm) (neg : Bool) {f : MathFn} {g : ℚ → ℚ} (hf : f.exactAt = some g) {d : DType}
    (hd : DType.isFloat d = true) (h : Held Elem) (hw : h.view.WF) (hx : ∀ i, InShape h.view.shape i → (h.nd.get i).OfType d) :
    ∃ arr, mathOp checked lib neg f d h = .ok (d, arr) ∧ arr.shape = h.view.shape ∧
      ∀ i, InShape h.view.shape i → ∃ x, h.nd.get i = .flt x ∧ arr.at? i = some (.flt
        (match x with | .num q => .num (g q) | .nan => .nan | .posInf => f.atInf | .negInf => f.atNegInf)) := by
  obtain ⟨arr, ha, hs, hat⟩ := mathOp_float checked lib neg f hd h hw
  have hk : kernelGroup f ≠ .predicate ∧ kernelGroup f ≠ .none := by
    revert hf; cases f <;> first | (intro hf; cases hf; done) | (intro _; decide)
  have hst : storedType f d = d := by unfold storedType; simp [hk.1]
  have hh : handles (kernelGroup f) d = true := by
    revert hk; cases hkk : kernelGroup f <;> intro hk
    · show (DType.isFloat d || _) = true; rw [hd]; rfl
    · show (DType.isFloat d || _ || _ || _) = true; rw [hd]; rfl
    · exact absurd rfl hk.1
    · exact absurd rfl hk.2
  refine ⟨arr, by rw [ha, hst], hs, fun i hi => ?_⟩
  have hxi := hx i hi
  rw [hat i hi]
  unfold mathElem
  rw [if_pos hh]
  unfold kernelElem
  rw [if_neg hk.1]
  cases hv : h.nd.get i with
  | flt x =>
    rw [hv] at hxi
    refine ⟨x, rfl, ?_⟩
    have e64 := exactAt_is hf 53 (-1074) 971 lib.double neg
    have e32 := exactAt_is hf 24 (-149) 104 lib.single neg
    cases d <;> first | (cases hd; done) | skip
    · -- half precision
      have hhalf : ∀ y, IsFlt 11 (-24) 5 y → floatFn 24 (-149) 104 lib.single neg f x = y → halfFn lib.single neg f x = y := by
        intro y hy he
        have ht : toFormat 11 (-24) 5 y = y := by
          cases y with
          | num q => exact roundBin_exact hy
          | _ => rfl
        by_cases h1 : f = .sign
        · subst h1; exact he
        by_cases h2 : f = .positive
        · subst h2; exact he
        have : halfFn lib.single neg f x = toFormat 11 (-24) 5 (floatFn 24 (-149) 104 lib.single neg f x) := by
          revert h1 h2; cases f <;> first | (intro _ _; rfl) | (intro h; exact absurd rfl h) | (intro _ h; exact absurd rfl h)
        rw [this, he, ht]
      have ht : ∀ b : Flt ℚ, b = f.atInf ∨ b = f.atNegInf → IsFlt 11 (-24) 5 b := by
        intro b hb
        have : f.atInf = .num 1 ∧ f.atNegInf = .num (-1) ∨ ((∀ q, f.atInf ≠ .num q) ∧ ∀ q, f.atNegInf ≠ .num q) := by
          cases f <;> first | exact Or.inl ⟨rfl, rfl⟩ | exact Or.inr ⟨fun _ h => (nomatch h), fun _ h => (nomatch h)⟩
        have one : IsFloat 11 (-24) 5 1 := ⟨1, 0, by norm_num, by norm_num, by norm_num, by norm_num⟩
        rcases this with ⟨h1, h2⟩ | ⟨h1, h2⟩
        · rcases hb with rfl | rfl
          · rw [h1]; exact one
          · rw [h2]; exact isFloat_neg one
        · cases b with
          | num q => rcases hb with hb | hb
                     · exact absurd hb.symm (h1 q)
                     · exact absurd hb.symm (h2 q)
          | _ => trivial
      cases x with
      | num q => exact congrArg (fun y => some (Elem.flt y)) (hhalf _ (exactAt_float hf hxi) (e32.1 q))
      | nan => exact congrArg (fun y => some (Elem.flt y)) (hhalf _ trivial e32.2.1)
      | posInf => exact congrArg (fun y => some (Elem.flt y)) (hhalf _ (ht _ (Or.inl rfl)) e32.2.2.1)
      | negInf => exact congrArg (fun y => some (Elem.flt y)) (hhalf _ (ht _ (Or.inr rfl)) e32.2.2.2)
    · cases x with
      | num q => exact congrArg (fun y => some (Elem.flt y)) (e32.1 q)
      | nan => exact congrArg (fun y => some (Elem.flt y)) e32.2.1
      | posInf => exact congrArg (fun y => some (Elem.flt y)) e32.2.2.1
      | negInf => exact congrArg (fun y => some (Elem.flt y)) e32.2.2.2
    · cases x with
      | num q => exact congrArg (fun y => some (Elem.flt y)) (e64.1 q)
      | nan => exact congrArg (fun y => some (Elem.flt y)) e64.2.1
      | posInf => exact congrArg (fun y => some (Elem.flt y)) e64.2.2.1
      | negInf => exact congrArg (fun y => some (Elem.flt y)) e64.2.2.2
  | _ =>
    rw [hv] at hxi
    exfalso
    revert hxi
    cases d <;> first | (cases hd; done) | (intro hxi; first | exact hxi.elim | (obtain ⟨_, _, h, _⟩ := hxi; cases h))

/-- C95: the square and the reciprocal of a float are the exact square and reciprocal rounded once to the dtype of the array, in half
precision too, where the code computes in single precision first. -/
theorem C95_square_reciprocal (checked : Bool) (lib : Libm) (neg : Bool) {d : DType} {p : Nat} {lo hi : Int}
    (hd : DType.isFloat d = true) (hfm : d.format = some (p, lo, hi)) (h : Held Elem) (hw : h.view.WF) :
    ∃ sq rc, mathOp checked lib neg .square d h = .ok (d, sq) ∧ mathOp checked lib neg .reciprocal d h = .ok (d, rc) ∧
      sq.shape = h.view.shape ∧ rc.shape = h.view.shape ∧
      ∀ i q, InShape h.view.shape i → h.nd.get i = .flt (.num q) → IsFloat p lo hi q →
        (∃ y, sq.at? i = some (.flt y) ∧ IsRounding p lo hi (.num (q * q)) y) ∧
        (q ≠ 0 → ∃ y, rc.at? i = some (.flt y) ∧ IsRounding p lo hi (.num (1 / q)) y) := by
  obtain ⟨sq, h1, s1, a1⟩ := mathOp_float checked lib neg .square hd h hw
  obtain ⟨rc, h2, s2, a2⟩ := mathOp_float checked lib neg .reciprocal hd h hw
  have e1 : storedType .square d = d := by unfold storedType; simp [kernelGroup]
  have e2 : storedType .reciprocal d = d := by unfold storedType; simp [kernelGroup]
  refine ⟨sq, rc, by rw [h1, e1], by rw [h2, e2], s1, s2, fun i q hi hv hq => ?_⟩
  rw [a1 i hi, a2 i hi, hv]
  have one : IsFloat 11 (-24) 5 1 := ⟨1, 0, by norm_num, by norm_num, by norm_num, by norm_num⟩
  cases d <;> first | (cases hd; done) | skip
  · cases hfm
    refine ⟨⟨_, rfl, (C93_half_nearest neg q q hq hq).2.2.1⟩, fun h0 => ⟨_, rfl, ?_⟩⟩
    exact (C93_half_nearest neg 1 q one hq).2.2.2 h0
  · cases hfm
    refine ⟨⟨_, rfl, toFormat_rounding (by norm_num) (by norm_num) (.num (q * q))⟩, fun h0 => ⟨_, rfl, ?_⟩⟩
    show IsRounding 24 (-149) 104 (.num (1 / q)) (if q = 0 then _ else roundBin 24 (-149) 104 (1 / q))
    rw [if_neg h0]
    exact toFormat_rounding (by norm_num) (by norm_num) (.num (1 / q))
  · cases hfm
    refine ⟨⟨_, rfl, toFormat_rounding (by norm_num) (by norm_num) (.num (q * q))⟩, fun h0 => ⟨_, rfl, ?_⟩⟩
    show IsRounding 53 (-1074) 971 (.num (1 / q)) (if q = 0 then _ else roundBin 53 (-1074) 971 (1 / q))
    rw [if_neg h0]
    exact toFormat_rounding (by norm_num) (by norm_num) (.num (1 / q))

example : (mathOp true ⟨fun _ x => x, fun _ x => x, fun _ x y => (x, y)⟩ false .floor .f16 (oneElem .f16 (.flt (.num (-5 / 2))))) =
      .ok (.f16, ⟨[1], [.flt (.num (-3))]⟩) ∧
    (mathOp true ⟨fun _ x => x, fun _ x => x, fun _ x y => (x, y)⟩ false .trunc .f32 (oneElem .f32 (.flt (.num (-5 / 2))))) =
      .ok (.f32, ⟨[1], [.flt (.num (-2))]⟩) ∧
    (mathOp true ⟨fun _ x => x, fun _ x => x, fun _ x y => (x, y)⟩ false .square .f16 (oneElem .f16 (.flt (.num 256)))) =
      .ok (.f16, ⟨[1], [.flt .posInf]⟩) := by decide +kernel

/-! ### Tests -/

/-- C95: `isnan`, `isinf`, `isfinite`, `isneginf`, `isposinf` and `signbit` of a float array give a bool array with the right answers
(the sign bit of a zero or a NaN is `neg`, which the model does not determine).  Missing: bool arrays, `isreal` and `iscomplex`, see
the counterexamples. -/
theorem C95_tests_partial (checked : Bool) (lib : Libm) (neg : Bool) {f : MathFn} (hf : f.test = true) (hf1 : f ≠ .isreal) (hf2 : f ≠ .iscomplex)
    {d : DType} (hd : DType.isFloat d = true) (h : Held Elem) (hw : h.view.WF) :
    ∃ arr, mathOp checked lib neg f d h = .ok (.bool, arr) ∧ arr.shape = h.view.shape ∧
      ∀ i x, InShape h.view.shape i → h.nd.get i = .flt x → (f = .signbit → x ≠ .nan ∧ x ≠ .num 0) →
        ∃ b, arr.at? i = some (.bool b) ∧ (b = true ↔ f.Answer x) := by
  obtain ⟨arr, ha, hs, hat⟩ := mathOp_float checked lib neg f hd h hw
  have hk : kernelGroup f = .predicate := by
    revert hf hf1 hf2; cases f <;> first | (intro hf; cases hf; done) | (intro _ h; exact absurd rfl h) | (intro _ _ h; exact absurd rfl h) | (intro _ _ _; rfl)
  have hh : handles (kernelGroup f) d = true := by
    rw [hk]; show (DType.isFloat d || _ || _ || _) = true; rw [hd]; rfl
  have hst : storedType f d = .bool := by unfold storedType; rw [hh, hk]; rfl
  refine ⟨arr, by rw [ha, hst], hs, fun i x hi hv hsb => ⟨floatTest neg f x, ?_, ?_⟩⟩
  · rw [hat i hi, hv]
    unfold mathElem
    rw [if_pos hh]
    unfold kernelElem
    rw [if_pos hk]
  · cases f <;> first | (cases hf; done) | exact absurd rfl hf1 | exact absurd rfl hf2 | skip
    · cases x <;> simp [floatTest, fltIsNan, MathFn.Answer]
    · cases x <;> simp [floatTest, fltIsInf, MathFn.Answer]
    · cases x <;> simp [floatTest, fltIsNan, fltIsInf, MathFn.Answer]
    · obtain ⟨h1, h2⟩ := hsb rfl
      cases x with
      | num q =>
        have hq : q ≠ 0 := fun e => h2 (by rw [e])
        simp [floatTest, MathFn.Answer, hq]
      | nan => exact absurd rfl h1
      | posInf => simp [floatTest, MathFn.Answer]
      | negInf => simp [floatTest, MathFn.Answer]
    · cases x <;> simp [floatTest, MathFn.Answer]
    · cases x <;> simp [floatTest, MathFn.Answer]

/-- C95: the same tests of an integer array: an integer is finite and its sign bit tells whether it is negative. -/
theorem C95_integer_tests (checked : Bool) (lib : Libm) (neg : Bool) {f : MathFn} (hf : f.test = true) (hf1 : f ≠ .isreal) (hf2 : f ≠ .iscomplex)
    {d : DType} (hd : DType.isSigned d = true ∨ DType.isUnsigned d = true) (h : Held Elem) (hw : h.view.WF)
    (hx : ∀ i, InShape h.view.shape i → (h.nd.get i).OfType d) :
    ∃ arr, mathOp checked lib neg f d h = .ok (.bool, arr) ∧ arr.shape = h.view.shape ∧
      ∀ i, InShape h.view.shape i → ∃ n b, h.nd.get i = .int n ∧ arr.at? i = some (.bool b) ∧ (b = true ↔ f.Answer (.num n)) := by
  have hk : kernelGroup f = .predicate := by
    revert hf hf1 hf2; cases f <;> first | (intro hf; cases hf; done) | (intro _ h; exact absurd rfl h) | (intro _ _ h; exact absurd rfl h) | (intro _ _ _; rfl)
  have hfa : f ≠ .abs ∧ f ≠ .neg ∧ isTranscendental f = false := by
    revert hf; cases f <;> first | (intro hf; cases hf; done) | (intro _; decide)
  have hcx : DType.isComplex d = false := by cases d <;> first | rfl | (rcases hd with h | h <;> cases h; done)
  have hh : handles (kernelGroup f) d = true := by
    rw [hk]; show (DType.isFloat d || _ || _ || _) = true
    rcases hd with hd | hd <;> simp [hd]
  have hst : storedType f d = .bool := by unfold storedType; rw [hh, hk]; rfl
  obtain ⟨arr, ha, his⟩ := mathDirect_ok checked lib neg f d h hw (Or.inl hcx) (by
    intro _ i hi
    cases h.nd.get i with
    | int n =>
      unfold mathPanics
      cases d.intRange with
      | none => rfl
      | some r => simp [hfa.1, hfa.2.1]
    | _ => rfl)
  refine ⟨arr, ?_, his.1, fun i hi => ?_⟩
  · unfold mathOp
    rw [if_neg (by rw [hfa.2.2]; simp), ha, hst]
  have hxi := hx i hi
  have hat := his.at? (idx := i) hi
  dsimp only at hat
  rw [hat]
  cases hv : h.nd.get i with
  | int n =>
    rw [hv] at hxi
    refine ⟨n, intTest (DType.isSigned d) f n, rfl, ?_, ?_⟩
    · unfold mathElem
      rw [if_pos hh]
      unfold kernelElem
      rw [if_pos hk]
    · have hn : DType.isSigned d = true ∨ 0 ≤ n := by
        rcases hd with hd | hd
        · exact Or.inl hd
        · right
          cases d <;> first | (cases hd; done) | (obtain ⟨lo, hi, hr, h1, h2⟩ := hxi; cases hr; exact h1)
      cases f <;> first | (cases hf; done) | exact absurd rfl hf1 | exact absurd rfl hf2 | skip
      · simp [intTest, MathFn.Answer]
      · simp [intTest, MathFn.Answer]
      · simp [intTest, MathFn.Answer]
      · rcases hn with hn | hn
        · simp [intTest, MathFn.Answer, hn]
        · have : ¬ n < 0 := by omega
          simp [intTest, MathFn.Answer, this]
      · simp [intTest, MathFn.Answer]
      · simp [intTest, MathFn.Answer]
  | _ =>
    rw [hv] at hxi
    exfalso
    revert hxi
    rcases hd with hd | hd <;> cases d <;> first | (cases hd; done) | exact fun hxi => hxi.elim

example : ∀ i, InShape [3] i → (mathCase.nd.get i).OfType .u8 ∧ (MathFn.isfinite.Answer (.num 3)) ∧ ¬ MathFn.isnan.Answer (.num 3) := by
  intro i hi
  have h := mem_indices.2 hi
  have e : indices [3] = [[0], [1], [2]] := by decide
  rw [e] at h
  simp only [List.mem_cons, List.not_mem_nil, or_false] at h
  refine ⟨?_, ⟨3, rfl⟩, by simp [MathFn.Answer]⟩
  rcases h with rfl | rfl | rfl <;> exact ⟨0, 2 ^ 8 - 1, rfl, by decide, by decide⟩

/-! ### What goes wrong -/

/-- `exp2`, `expm1`, `log1p`, `cbrt`, `arcsinh`, `arccosh` and `arctanh` of an integer array keep the integer dtype and drop the fraction:
whatever the library computes between 0 and 1 for `log1p(1)`, the result is 0. -/
theorem C95_integer_counterexample (lib : Libm) (neg : Bool) (q : ℚ) (h0 : 0 ≤ q) (h1 : q < 1) (hl : lib.double .log1p (.num 1) = .num q) :
    mathOp false lib neg .log1p .i64 (oneElem .i64 (.int 1)) = .ok (.i64, ⟨[1], [.int 0]⟩) ∧ mathType .log1p .i64 = some .f64 := by
  refine ⟨?_, rfl⟩
  have hfl : fltToInt (-2 ^ 63) (2 ^ 63 - 1) (.num q) = 0 := by
    have hfq : ⌊q⌋ = 0 := Int.floor_eq_zero_iff.2 ⟨h0, h1⟩
    simp [fltToInt, h0, hfq]
  have : mathOp false lib neg .log1p .i64 (oneElem .i64 (.int 1)) =
      .ok (.i64, ⟨[1], [.int (fltToInt (-2 ^ 63) (2 ^ 63 - 1) (lib.double .log1p (.num ((intToF64 1 : Int) : ℚ))))]⟩) := rfl
  have e1 : ((intToF64 1 : Int) : ℚ) = 1 := by rw [intToF64_exact (by decide)]; rfl
  rw [this, e1, hl, hfl]

/-- A bool array is passed through by the tests: `isfinite(False)` is `False` and `isnan(True)` is `True`.  The negation of a bool, which
NumPy refuses, is the logical not, and the square keeps the dtype. -/
theorem C95_bool_counterexample (lib : Libm) (neg : Bool) :
    mathOp false lib neg .isfinite .bool (oneElem .bool (.bool false)) = .ok (.bool, ⟨[1], [.bool false]⟩) ∧
    mathOp false lib neg .isnan .bool (oneElem .bool (.bool true)) = .ok (.bool, ⟨[1], [.bool true]⟩) ∧
    MathFn.isfinite.Answer (.num 0) ∧ ¬ MathFn.isnan.Answer (.num 1) ∧
    mathOp false lib neg .neg .bool (oneElem .bool (.bool false)) = .ok (.bool, ⟨[1], [.bool true]⟩) ∧ mathType .neg .bool = none ∧
    mathOp false lib neg .square .bool (oneElem .bool (.bool true)) = .ok (.bool, ⟨[1], [.bool true]⟩) ∧
    mathType .square .bool = some .i8 :=
  ⟨rfl, rfl, ⟨0, rfl⟩, by simp [MathFn.Answer], rfl, rfl, rfl, rfl⟩

/-- `isreal` of a float array is a float array, the absolute value of a complex array is complex, and functions of dates that NumPy
refuses are computed (`sqrt` of a date) or pass the date through (`floor`, `isnan`). -/
theorem C95_type_counterexample (lib : Libm) (neg : Bool) (u : TimeUnit) :
    mathOp false lib neg .isreal .f64 (oneElem .f64 (.flt (.num 3))) = .ok (.f64, ⟨[1], [.flt (.num 1)]⟩) ∧
    mathType .isreal .f64 = some .bool ∧
    mathOp false lib neg .abs .c128 (oneElem .c128 (.cpx (.num 3) (.num 4))) =
      .ok (.c128, ⟨[1], [.cpx (lib.complex .abs (.num 3) (.num 4)).1 (lib.complex .abs (.num 3) (.num 4)).2]⟩) ∧
    mathType .abs .c128 = some .f64 ∧
    mathOp false lib neg .sqrt (.datetime u) (oneElem (.datetime u) (.int 4)) =
      .ok (.f64, ⟨[1], [.flt (lib.double .sqrt (.num ((intToF64 4 : Int) : ℚ)))]⟩) ∧ mathType .sqrt (.datetime u) = none ∧
    mathOp false lib neg .isnan (.datetime u) (oneElem (.datetime u) (.int 4)) = .ok (.datetime u, ⟨[1], [.int 4]⟩) :=
  ⟨rfl, rfl, rfl, rfl, by cases u <;> rfl, rfl, rfl⟩

/-- The sign of a NaN given as a Python number is 0, of a NaN in an array NaN. -/
theorem C95_scalar_counterexample (lib : Libm) (neg : Bool) :
    mathScalar lib .sign .nan = .num 0 ∧
      mathOp false lib neg .sign .f64 (oneElem .f64 (.flt .nan)) = .ok (.f64, ⟨[1], [.flt .nan]⟩) := ⟨rfl, rfl⟩

end Props
