import Verif.Model.NumberFn
import Verif.Props.Ufunc
import Verif.Props.Arith
/-!
# C122: a function of numbers and of arrays
-/

namespace Props
open Rumpy Spec

/-- C122 (partial): what a function of one argument gives for a float64 array is, element by element, the number it gives for the element as
a Python float; a test counts yes as 1 and no as 0.  Missing: `exp2`, computed by two functions of the library, and the sign of NaN
(`C122_counterexample`). -/
theorem C122_floats_partial (checked : Bool) (lib : Libm) (pow2 : Flt ℚ → Flt ℚ) (neg : Bool) {f : MathFn} (hf : f ≠ .exp2) {h : Held Elem}
    (hw : h.view.WF) (ht : ∀ i, InShape h.view.shape i → (h.nd.get i).OfType .f64) :
    ∃ t arr, mathOp checked lib neg f .f64 h = .ok (t, arr) ∧ arr.shape = h.view.shape ∧
      ∀ i, InShape h.view.shape i → (f = .sign → h.nd.get i ≠ .flt .nan) →
        ∃ y w, arr.at? i = some y ∧ ofNumber lib pow2 neg f (h.nd.get i) = some w ∧ y.parts = some (w, .num 0) := by
  obtain ⟨arr, h1, h2, h3⟩ := mathOp_float checked lib neg f (d := .f64) rfl h hw
  refine ⟨_, arr, h1, h2, fun i hi hs => ?_⟩
  have hx := ht i hi
  have e := h3 i hi
  cases hv : h.nd.get i with
  | flt x =>
    rw [hv] at e hs
    refine ⟨_, _, e, rfl, ?_⟩
    cases f <;> first | exact absurd rfl hf | rfl | (cases x <;> first | rfl | exact absurd rfl (hs rfl)) | skip
    have key : ∀ b : Bool, (Elem.bool b).parts = some (oneIf b, .num 0) := fun b => by cases b <;> rfl
    cases x <;> exact key _
  | bool _ => rw [hv] at hx; exact hx.elim
  | int _ => rw [hv] at hx; obtain ⟨_, _, hx, _⟩ := hx; cases hx
  | cpx _ _ => rw [hv] at hx; exact hx.elim
  | text _ => rw [hv] at hx; exact hx.elim

theorem whole_small {f : MathFn} {w : Int → Int} (hf : f.whole = some w) (hq : f ≠ .square) {n : Int} (hn : n.natAbs ≤ 2 ^ 53) :
    (w n).natAbs ≤ 2 ^ 53 := by
  cases f <;> first | (cases hf; done) | exact absurd rfl hq | skip
  case neg => cases hf; rw [Int.natAbs_neg]; exact hn
  case abs => cases hf; rw [Int.natAbs_abs]; exact hn
  case sign =>
    cases hf
    rcases lt_trichotomy n 0 with g | g | g
    · rw [Int.sign_eq_neg_one_of_neg g]; norm_num
    · rw [g]; norm_num
    · rw [Int.sign_eq_one_of_pos g]; norm_num
  all_goals (cases hf; exact hn)

theorem whole_number (lib : Libm) (pow2 : Flt ℚ → Flt ℚ) (neg : Bool) {f : MathFn} {w : Int → Int} (hf : f.whole = some w) (hq : f ≠ .square)
    (n : Int) : numberFn lib pow2 neg f (.num (n : ℚ)) = .num ((w n : Int) : ℚ) := by
  cases f <;> first | (cases hf; done) | exact absurd rfl hq | skip
  case neg => cases hf; show Flt.num _ = _; push_cast; rfl
  case abs => cases hf; show Flt.num _ = _; push_cast; rfl
  case sign =>
    cases hf
    show (if fltLt (.num 0) (.num (n : ℚ)) then _ else if fltLt (.num (n : ℚ)) (.num 0) then _ else _) = _
    rcases lt_trichotomy n 0 with g | g | g
    · rw [Int.sign_eq_neg_one_of_neg g]; simp [fltLt, g, g.le]
    · rw [g]; simp [fltLt]
    · rw [Int.sign_eq_one_of_pos g]; simp [fltLt, g]
  case floor => cases hf; show Flt.num _ = _; simp
  case ceil => cases hf; show Flt.num _ = _; simp
  case trunc => cases hf; show Flt.num _ = _; simp
  case positive => cases hf; rfl

/-- C122 (partial): a whole function of an integer array up to 2 ^ 53 gives what it gives for the elements as Python integers.  Missing: greater
numbers (`C122_counterexample`), squares beyond the dtype. -/
theorem C122_integers_partial (checked : Bool) (lib : Libm) (pow2 : Flt ℚ → Flt ℚ) (neg : Bool) {f : MathFn} {w : Int → Int} (hf : f.whole = some w)
    (hq : f ≠ .square) {h : Held Elem} (hw : h.view.WF) (ht : ∀ i, InShape h.view.shape i → (h.nd.get i).OfType .i64)
    (hs : ∀ i n, InShape h.view.shape i → h.nd.get i = .int n → n.natAbs ≤ 2 ^ 53) :
    ∃ arr, mathOp checked lib neg f .i64 h = .ok (.i64, arr) ∧ arr.shape = h.view.shape ∧
      ∀ i, InShape h.view.shape i → ∃ m : Int, arr.at? i = some (.int m) ∧ ofNumber lib pow2 neg f (h.nd.get i) = some (.num m) := by
  obtain ⟨arr, h1, h2, h3⟩ := C95_integers checked lib neg hf (d := .i64) trivial rfl h hw (by
    intro _ _ _ i hi he
    have := hs i _ hi he
    omega)
  refine ⟨arr, h1, h2, fun i hi => ?_⟩
  have hx := ht i hi
  cases hv : h.nd.get i with
  | int n =>
    have hn := hs i n hi hv
    obtain ⟨m, m1, m2, m3, m4⟩ := h3 i n hi hv (by omega) (by omega)
    have hm : m = w n := by
      have hwn := whole_small hf hq hn
      obtain ⟨k, hk⟩ := m4
      omega
    refine ⟨m, m1, ?_⟩
    rw [hm]
    show some (numberFn lib pow2 neg f (.num ((intToF64 n : Int) : ℚ))) = _
    rw [intToF64_exact (by omega)]
    rw [whole_number lib pow2 neg hf hq n]
  | flt _ => rw [hv] at hx; obtain ⟨_, _, _, hx, _⟩ := hx
  | bool _ => rw [hv] at hx; exact hx.elim
  | cpx _ _ => rw [hv] at hx; exact hx.elim
  | text _ => rw [hv] at hx; exact hx.elim

/-- Both ways, for a number and an array. -/
example (lib : Libm) (pow2 : Flt ℚ → Flt ℚ) :
    mathOp false lib false .trunc .f64 (stored .f64 [2] [.flt (.num (-5 / 2)), .flt .nan]) = .ok (.f64, ⟨[2], [.flt (.num (-2)), .flt .nan]⟩) ∧
    ofNumber lib pow2 false .trunc (.flt (.num (-5 / 2))) = some (.num (-2)) ∧
    mathOp false lib false .isnan .f64 (stored .f64 [2] [.flt (.num (-5 / 2)), .flt .nan]) = .ok (.bool, ⟨[2], [.bool false, .bool true]⟩) ∧
    ofNumber lib pow2 false .isnan (.flt .nan) = some (.num 1) ∧
    mathOp false lib false .abs .i64 (stored .i64 [1] [.int (-7)]) = .ok (.i64, ⟨[1], [.int 7]⟩) ∧
    ofNumber lib pow2 false .abs (.int (-7)) = some (.num 7) :=
  have e : fltTrunc (.num (-5 / 2)) = .num (-2) := by decide +kernel
  ⟨by show Outcome.ok (DType.f64, (⟨[2], [.flt (fltTrunc (.num (-5 / 2))), .flt .nan]⟩ : Arr Elem)) = _; rw [e], congrArg some e, rfl, rfl, rfl,
    by show some (fltAbs (.num ((intToF64 (-7) : Int) : ℚ))) = _; decide +kernel⟩

/-- C122 fails for the sign of NaN, 0 for a number and NaN for an array, for integers that are no doubles, and for `True`, which a test takes
for a number and an array of bools passes through. -/
theorem C122_counterexample (lib : Libm) (pow2 : Flt ℚ → Flt ℚ) :
    mathOp false lib false .sign .f64 (stored .f64 [1] [.flt .nan]) = .ok (.f64, ⟨[1], [.flt .nan]⟩) ∧
    ofNumber lib pow2 false .sign (.flt .nan) = some (.num 0) ∧
    mathOp false lib false .abs .i64 (stored .i64 [1] [.int (2 ^ 53 + 1)]) = .ok (.i64, ⟨[1], [.int (2 ^ 53 + 1)]⟩) ∧
    ofNumber lib pow2 false .abs (.int (2 ^ 53 + 1)) = some (.num (2 ^ 53)) ∧
    mathOp false lib false .isnan .bool (stored .bool [1] [.bool true]) = .ok (.bool, ⟨[1], [.bool true]⟩) ∧
    ofNumber lib pow2 false .isnan (.bool true) = some (.num 0) := by
  refine ⟨rfl, rfl, rfl, ?_, rfl, rfl⟩
  show some (Flt.num |((intToF64 (2 ^ 53 + 1) : Int) : ℚ)|) = _
  have : intToF64 (2 ^ 53 + 1) = 2 ^ 53 := by decide +kernel
  rw [this]
  norm_num

end Props
