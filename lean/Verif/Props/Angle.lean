import Verif.Model.Angle
import Verif.Props.Arith
import Verif.Lemmas.FloatPower
/-!
# C120: degrees and radians
-/

namespace Props
open Rumpy Spec

/-- The factors are the doubles nearest to the quotients. -/
theorem C120_factors : IsRounding 53 (-1074) 971 (.num (pi64 / 180)) degToRad ∧ IsRounding 53 (-1074) 971 (.num (180 / pi64)) radToDeg ∧
    |pi64 - 31415926535897932 / 10 ^ 16| < 1 / 10 ^ 15 :=
  ⟨toFormat_rounding (by norm_num) (by norm_num) (.num (pi64 / 180)), toFormat_rounding (by norm_num) (by norm_num) (.num (180 / pi64)),
    by unfold pi64; norm_num [abs_lt]⟩

theorem factor_isFlt (q : ℚ) : IsFlt 53 (-1074) 971 (roundBin 53 (-1074) 971 q) := roundBin_isFlt (by norm_num) (by norm_num) q

/-- What the conversion by a factor gives for the number `u`: the number and the factor as floats of the format, and their product
rounded to it. -/
def Scaled (p : Nat) (lo hi : Int) (factor u w : Flt ℚ) : Prop :=
  ∃ v c, IsRounding p lo hi u v ∧ IsRounding p lo hi factor c ∧ IsArith p lo hi .mul v c w

/-- What the conversion by a factor gives for an array. -/
def IsConverted (factor : Flt ℚ) (d : DType) (h : Held Elem) (r : Outcome (DType × Arr Elem)) : Prop :=
  ∃ q, r = .ok (if d = .f32 then .f32 else .f64, q) ∧ q.shape = h.view.shape ∧
    ∀ i, InShape h.view.shape i → ∃ u w, (h.nd.get i).parts = some (u, .num 0) ∧ q.at? i = some (.flt w) ∧
      (d = .f32 → Scaled 24 (-149) 104 factor u w) ∧ (d ≠ .f32 → Scaled 53 (-1074) 971 factor u w)

theorem angleArr_converted (pw : Powf) (neg : Bool) {factor : Flt ℚ} (hf : IsFlt 53 (-1074) 971 factor) {d : DType} (hd : d.Real)
    {h : Held Elem} (hw : h.view.WF) (ht : Typed d h) (hs : h.view.shape ≠ []) : IsConverted factor d h (angleArr pw neg factor d h) := by
  have hv : Spec.PyScalar.Value (.float factor) factor := ⟨rfl, hf⟩
  unfold IsConverted angleArr
  by_cases h64 : d = .f64
  · subst h64
    obtain ⟨q, q', c, h1, h2, -, h3, -, h4⟩ := C96_scalar_floats_partial pw neg (op := .mul) (by simp) (d := .f64) rfl rfl hw ht hs hv
    refine ⟨q, by rw [if_neg (by simp)]; exact h2, h3, fun i hi => ?_⟩
    obtain ⟨u, w, w', g1, g2, g3, -⟩ := h4 i hi
    have hu := ht i hi
    rw [g1] at hu
    exact ⟨u, w, by rw [g1]; rfl, g2, fun hh => (by cases hh), fun _ => ⟨u, c, isRounding_self hu, h1, g3⟩⟩
  by_cases h32 : d = .f32
  · subst h32
    obtain ⟨q, q', c, h1, h2, -, h3, -, h4⟩ := C96_scalar_floats_partial pw neg (op := .mul) (by simp) (d := .f32) rfl rfl hw ht hs hv
    refine ⟨q, by rw [if_neg (by simp)]; exact h2, h3, fun i hi => ?_⟩
    obtain ⟨u, w, w', g1, g2, g3, -⟩ := h4 i hi
    have hu := ht i hi
    rw [g1] at hu
    exact ⟨u, w, by rw [g1]; rfl, g2, fun _ => ⟨u, c, isRounding_self hu, h1, g3⟩, fun hh => absurd rfl hh⟩
  · rw [if_pos ⟨h64, h32⟩, if_neg h32]
    obtain ⟨k1, k2, k3⟩ := recast_get hd h64 hw (s := h.view.shape) ⟨le_refl _, fun _ _ => Or.inr rfl⟩ (b := .f64) (by decide)
    have get : ∀ i, InShape h.view.shape i → ∃ u v, (h.nd.get i).parts = some (u, .num 0) ∧ (recast d .f64 h).nd.get i = .flt v ∧
        IsRounding 53 (-1074) 971 u v := by
      intro i hi
      have e := k3 i hi
      rw [bcast_self (a := (recast d .f64 h).nd) k2 hi, bcast_self (a := h.nd) (s := h.view.shape) rfl hi, castElem_real hd h64] at e
      obtain ⟨u, v, p1, p2, p3⟩ := readF64_double hd (ht i hi)
      rw [p2] at e
      exact ⟨u, v, p1, e, p3.1⟩
    have ht' : Typed .f64 (recast d .f64 h) := by
      intro i hi
      rw [k2] at hi
      obtain ⟨u, v, p1, p2, p3⟩ := get i hi
      rw [p2]
      cases u <;> cases v <;> first | trivial | exact p3.1 | cases p3
    obtain ⟨q, q', c, h1, h2, -, h3, -, h4⟩ := C96_scalar_floats_partial pw neg (op := .mul) (by simp) (d := .f64) rfl rfl k1 ht'
      (by rw [k2]; exact hs) hv
    refine ⟨q, h2, h3.trans k2, fun i hi => ?_⟩
    obtain ⟨v', w, w', g1, g2, g3, -⟩ := h4 i (by rw [k2]; exact hi)
    obtain ⟨u, v, p1, p2, p3⟩ := get i hi
    rw [p2] at g1
    cases g1
    exact ⟨u, w, p1, g2, fun hh => absurd hh h32, fun _ => ⟨v', c, p3, h1, g3⟩⟩

/-- C120 (partial): an array of bools, integers or floats keeps its shape, and every element becomes its product with the double nearest
to pi / 180, or 180 / pi, in float32 for float32 and in float64 for everything else.  Missing: arrays of rank 0, which become vectors,
complex arrays (`C120_counterexample`), and NumPy's smaller floats for float16 and short integers. -/
theorem C120_angles_partial (pw : Powf) (neg : Bool) {d : DType} (hd : d.Real) {h : Held Elem} (hw : h.view.WF) (ht : Typed d h)
    (hs : h.view.shape ≠ []) :
    (∃ c, IsRounding 53 (-1074) 971 (.num (pi64 / 180)) c ∧ IsConverted c d h (Rumpy.deg2rad pw neg d h) ∧
      IsConverted c d h (Rumpy.radians pw neg d h)) ∧
    ∃ c, IsRounding 53 (-1074) 971 (.num (180 / pi64)) c ∧ IsConverted c d h (Rumpy.rad2deg pw neg d h) ∧
      IsConverted c d h (Rumpy.degrees pw neg d h) :=
  ⟨⟨degToRad, C120_factors.1, angleArr_converted pw neg (factor_isFlt _) hd hw ht hs, angleArr_converted pw neg (factor_isFlt _) hd hw ht hs⟩,
    radToDeg, C120_factors.2.1, angleArr_converted pw neg (factor_isFlt _) hd hw ht hs, angleArr_converted pw neg (factor_isFlt _) hd hw ht hs⟩

/-- C120: a number of Python is multiplied by the same factor. -/
theorem C120_numbers (neg : Bool) {x : Flt ℚ} (hx : IsFlt 53 (-1074) 971 x) :
    (∃ c, IsRounding 53 (-1074) 971 (.num (pi64 / 180)) c ∧ Scaled 53 (-1074) 971 c x (deg2radNum neg x)) ∧
    ∃ c, IsRounding 53 (-1074) 971 (.num (180 / pi64)) c ∧ Scaled 53 (-1074) 971 c x (rad2degNum neg x) :=
  ⟨⟨_, C120_factors.1, x, _, isRounding_self hx, isRounding_self (factor_isFlt _), kernel_isArith (by norm_num) (by norm_num) neg (op := .mul) rfl (by simp) x _⟩,
    _, C120_factors.2.1, x, _, isRounding_self hx, isRounding_self (factor_isFlt _), kernel_isArith (by norm_num) (by norm_num) neg (op := .mul) rfl (by simp) x _⟩

example : Rumpy.deg2rad noPow false .i64 (stored .i64 [2] [.int 180, .int 0]) = .ok (.f64, ⟨[2], [.flt (.num pi64), .flt (.num 0)]⟩) ∧
    Rumpy.degrees noPow false .f64 (stored .f64 [1] [.flt (.num pi64)]) = .ok (.f64, ⟨[1], [.flt (.num 180)]⟩) ∧
    deg2radNum false (.num 180) = .num pi64 := by decide +kernel

/-- C120 fails for complex arrays, which NumPy refuses and the code reads as 0, and for arrays of rank 0, which become vectors. -/
theorem C120_counterexample :
    Rumpy.deg2rad noPow false .c128 (stored .c128 [1] [.cpx (.num 180) (.num 1)]) = .ok (.f64, ⟨[1], [.flt (.num 0)]⟩) ∧
    Rumpy.deg2rad noPow false .f64 (stored .f64 [] [.flt (.num 180)]) = .ok (.f64, ⟨[1], [.flt (.num pi64)]⟩) := by
  decide +kernel

end Props
