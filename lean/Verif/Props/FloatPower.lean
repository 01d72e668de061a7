import Verif.Lemmas.FloatPower
/-!
# C105: `float_power`
-/

namespace Props
open Spec Rumpy

theorem floatPower_array (lib : PowLib) (a b : DType) (h g : Held Elem) :
    floatPower lib (.array a h) (.array b g) = floatPowerArrays lib a b h g := rfl

/-- The dtypes of numbers other than bool. -/
theorem powKind_table : ∀ a ∈ numericOrder, ∀ b ∈ numericOrder, a ≠ .bool ∨ b ≠ .bool →
    (promote a b ≠ .bool ∧ (powKind (promote a b)).map Prod.fst = some (if promote a b = .c64 ∨ promote a b = .c128 then .c128 else .f64)) ∧
      0 < DType.itemsize (promote a b) := by decide +kernel

theorem powKind_some {a b : DType} (ha : a.Numeric) (hb : b.Numeric) (hn : a ≠ .bool ∨ b ≠ .bool) :
    ∃ t, powKind (promote a b) = some (if promote a b = .c64 ∨ promote a b = .c128 then .c128 else .f64, t) := by
  obtain ⟨⟨-, h⟩, -⟩ := powKind_table a (mem_numericOrder ha) b (mem_numericOrder hb) hn
  cases hk : powKind (promote a b) with
  | none => rw [hk] at h; cases h
  | some q =>
    rw [hk] at h
    obtain ⟨r, t⟩ := q
    refine ⟨t, ?_⟩
    have h' : r = _ := Option.some.inj h
    rw [h']

/-- C105: arrays of numbers that are not both bools are accepted exactly when their shapes broadcast. -/
theorem C105_accepts (lib : PowLib) {a b : DType} (ha : a.Numeric) (hb : b.Numeric) (hn : a ≠ .bool ∨ b ≠ .bool) {h g : Held Elem} (hw : h.view.WF)
    (gw : g.view.WF) (hal : AlignedAs a h.view) (gal : AlignedAs b g.view) :
    (∃ q, floatPower lib (.array a h) (.array b g) = .ok q) ↔ ∃ out, IsBroadcast h.view.shape g.view.shape out := by
  obtain ⟨t, hk⟩ := powKind_some ha hb hn
  obtain ⟨h1, h2⟩ := floatPower_is lib hw gw hal gal (powKind_table a (mem_numericOrder ha) b (mem_numericOrder hb) hn).2 hk
  rw [floatPower_array, ← h1]
  constructor
  · rintro ⟨q, hq⟩
    rw [hq]
    exact fun h => nomatch h
  · intro hne
    obtain ⟨out, ho⟩ := h1.1 hne
    obtain ⟨q, hq, -⟩ := h2 out ho
    exact ⟨_, hq⟩

/-- C105: bools, integers and floats, not both bools: the result has dtype float64, and each element is the power of the two elements, each
rounded once to the nearest double. -/
theorem C105_real_partial (lib : PowLib) {a b : DType} (ha : a.Real) (hb : b.Real) (hn : a ≠ .bool ∨ b ≠ .bool) {h g : Held Elem} (hw : h.view.WF)
    (gw : g.view.WF) (hal : AlignedAs a h.view) (gal : AlignedAs b g.view) (ht : Typed a h) (gt : Typed b g) {out : List Nat}
    (ho : IsBroadcast h.view.shape g.view.shape out) :
    ∃ q, floatPower lib (.array a h) (.array b g) = .ok (.f64, q) ∧ q.shape = out ∧ q.data.length = size out ∧ ∀ i, InShape out i →
      ∃ u v u' v', ((h.nd.broadcast out).get i).parts = some (u, .num 0) ∧ ((g.nd.broadcast out).get i).parts = some (v, .num 0) ∧
        IsDouble u u' ∧ IsDouble v v' ∧ q.at? i = some (.flt (lib.real u' v')) := by
  obtain ⟨hc, hr, -, -⟩ := common_table a (mem_realTypes ha) b (mem_realTypes hb)
  obtain ⟨t, hk⟩ := powKind_some (real_numeric ha) (real_numeric hb) hn
  have hnc : ¬ (promote a b = .c64 ∨ promote a b = .c128) := by
    rintro (h | h) <;> rw [h] at hr <;> exact hr
  rw [if_neg hnc] at hk
  obtain ⟨q, h1, h2⟩ := (floatPower_is lib hw gw hal gal (itemsize_real hr) hk).2 out ho
  obtain ⟨q1, q2, q3⟩ := Arr.is_iff.1 h2
  obtain ⟨b1, b2⟩ := broadcastsTo_of ho
  refine ⟨q, h1, q1, q2, fun i hi => ?_⟩
  have tx := typed_broadcast ht b1 hi
  have ty := typed_broadcast gt b2 hi
  have both : (isIntegerKind (promote a b) = true ∧ fitsTable a (promote a b) = true ∨ DType.isFloat (promote a b) = true ∧
        (fitsTable a (promote a b) = true ∨ (a = .i64 ∨ a = .u64) ∧ promote a b = .f64)) ∧
      (isIntegerKind (promote a b) = true ∧ fitsTable b (promote a b) = true ∨ DType.isFloat (promote a b) = true ∧
        (fitsTable b (promote a b) = true ∨ (b = .i64 ∨ b = .u64) ∧ promote a b = .f64)) := by
    rcases hc with ⟨-, rfl, rfl⟩ | ⟨c1, c2, c3⟩ | ⟨c1, c2, c3⟩
    · rcases hn with hn | hn <;> exact absurd rfl hn
    · exact ⟨Or.inl ⟨c1, c2⟩, Or.inl ⟨c1, c3⟩⟩
    · exact ⟨Or.inr ⟨c1, c2⟩, Or.inr ⟨c1, c3⟩⟩
  obtain ⟨u, u', p1, r1, d1⟩ := operand_double ha both.1 tx
  obtain ⟨v, v', p2, r2, d2⟩ := operand_double hb both.2 ty
  refine ⟨u, v, u', v', p1, p2, d1, d2, ?_⟩
  rw [q3 i hi]
  exact congrArg some (powElem_real lib r1 r2)

/-- C105 (partial): if one operand is complex, the result has dtype complex128 and each element is the power of the two elements, whose parts are
rounded to doubles. Missing: complex64 with complex128, where the complex64 operand is lost. -/
theorem C105_complex_partial (lib : PowLib) {a b : DType} (ha : a.Numeric) (hb : b.Numeric) (hc : promote a b = .c64 ∨ promote a b = .c128)
    (hab : (a = promote a b ∨ a.Real) ∧ (b = promote a b ∨ b.Real)) {h g : Held Elem} (hw : h.view.WF) (gw : g.view.WF) (hal : AlignedAs a h.view)
    (gal : AlignedAs b g.view) (ht : Typed a h) (gt : Typed b g) {out : List Nat} (ho : IsBroadcast h.view.shape g.view.shape out) :
    ∃ q, floatPower lib (.array a h) (.array b g) = .ok (.c128, q) ∧ q.shape = out ∧ q.data.length = size out ∧ ∀ i, InShape out i →
      ∃ u1 u2 v1 v2 u1' u2' v1' v2', ((h.nd.broadcast out).get i).parts = some (u1, u2) ∧ ((g.nd.broadcast out).get i).parts = some (v1, v2) ∧
        IsDouble u1 u1' ∧ IsDouble u2 u2' ∧ IsDouble v1 v1' ∧ IsDouble v2 v2' ∧
        q.at? i = some (.cpx (lib.cpx (u1', u2') (v1', v2')).1 (lib.cpx (u1', u2') (v1', v2')).2) := by
  have hn : a ≠ .bool ∨ b ≠ .bool := by
    by_contra hcon
    rw [not_or, not_not, not_not] at hcon
    rw [hcon.1, hcon.2] at hc
    revert hc
    decide
  obtain ⟨t, hk⟩ := powKind_some ha hb hn
  rw [if_pos hc] at hk
  obtain ⟨q, h1, h2⟩ := (floatPower_is lib hw gw hal gal (powKind_table a (mem_numericOrder ha) b (mem_numericOrder hb) hn).2 hk).2 out ho
  obtain ⟨q1, q2, q3⟩ := Arr.is_iff.1 h2
  obtain ⟨b1, b2⟩ := broadcastsTo_of ho
  refine ⟨q, h1, q1, q2, fun i hi => ?_⟩
  have key : ∀ a ∈ numericOrder, ∀ b ∈ numericOrder, promote a b = .c64 →
      (a.Real → fitsTable a .f32 = true) ∧ (b.Real → fitsTable b .f32 = true) := by decide +kernel
  have k := key a (mem_numericOrder ha) b (mem_numericOrder hb)
  obtain ⟨u1, u2, u1', u2', p1, c1, d1, d2⟩ := operand_complex hc
    (hab.1.imp id fun hr => ⟨hr, fun h => (k h).1 hr⟩) (typed_broadcast ht b1 hi)
  obtain ⟨v1, v2, v1', v2', p2, c2, e1, e2⟩ := operand_complex hc
    (hab.2.imp id fun hr => ⟨hr, fun h => (k h).2 hr⟩) (typed_broadcast gt b2 hi)
  refine ⟨u1, u2, v1, v2, u1', u2', v1', v2', p1, p2, d1, d2, e1, e2, ?_⟩
  rw [q3 i hi]
  dsimp only
  rw [c1, c2]
  rfl

example : promote .c64 .i64 = .c128 ∧ promote .c64 .i16 = .c64 ∧ DType.Real .i64 := by decide

/-- C105: `n ** array` and `array ** n` treat the number as a double in an array of length one; a list is an array of doubles. -/
theorem C105_numbers (lib : PowLib) {s : PyScalar} {x : Flt ℚ} (hs : pyF64 s = some x) (y : PowArg) :
    floatPower lib (.number s) y = floatPower lib (.array .f64 (stored .f64 [1] [.flt x])) y ∧
      floatPower lib y (.number s) = floatPower lib y (.array .f64 (stored .f64 [1] [.flt x])) ∧
      ∀ ss xs, ss.mapM pyF64 = some xs →
        floatPower lib (.list ss) y = floatPower lib (.array .f64 (stored .f64 [xs.length] (xs.map Elem.flt))) y ∧
        floatPower lib y (.list ss) = floatPower lib y (.array .f64 (stored .f64 [xs.length] (xs.map Elem.flt))) := by
  have e1 : powOperand (.number s) = powOperand (.array .f64 (stored .f64 [1] [.flt x])) := by
    show (pyF64 s).map _ = _
    rw [hs]
    rfl
  have many : ∀ ss, pyF64s ss = ss.mapM pyF64 := by
    intro ss
    induction ss with
    | nil => rfl
    | cons t ss ih =>
      rw [pyF64s, ih, List.mapM_cons]
      cases pyF64 t with
      | none => rfl
      | some z => cases ss.mapM pyF64 <;> rfl
  refine ⟨?_, ?_, fun ss xs hx => ?_⟩
  · unfold floatPower
    rw [e1]
  · unfold floatPower
    rw [e1]
  · have e2 : powOperand (.list ss) = powOperand (.array .f64 (stored .f64 [xs.length] (xs.map Elem.flt))) := by
      show (pyF64s ss).map _ = _
      rw [many, hx]
      rfl
    constructor
    · unfold floatPower
      rw [e2]
    · unfold floatPower
      rw [e2]

/-- A power function for the examples: the product. -/
def productLib : PowLib := ⟨fltMul 53 (-1074) 971, fun x y => (fltMul 53 (-1074) 971 x.1 y.1, .num 0)⟩

example : floatPower productLib (.number (.int 3)) (.array .i16 (stored .i16 [2] [.int 5, .int (-2)])) =
    .ok (.f64, ⟨[2], [.flt (.num 15), .flt (.num (-6))]⟩) := by decide +kernel

example : floatPower productLib (.array .i8 (stored .i8 [2, 1] [.int 5, .int (-2)])) (.array .f32 (stored .f32 [2] [.flt (.num (1 / 2)), .flt .posInf])) =
    .ok (.f64, ⟨[2, 2], [.flt (.num (5 / 2)), .flt .posInf, .flt (.num (-1)), .flt .negInf]⟩) := by decide +kernel

example : AlignedAs .i8 (stored .i8 [2, 1] [.int 5, .int (-2)]).view ∧ (stored .i8 [2, 1] [.int 5, .int (-2)]).view.WF ∧
    IsBroadcast [2, 1] [2] [2, 2] := by
  refine ⟨⟨rfl, cStrides_dvd _ _⟩, held_of_wf _ _ _, broadcastShapes_iff.1 (by decide)⟩

/-- C105: two arrays of bools are refused; NumPy gives float64. -/
theorem C105_bool_counterexample (lib : PowLib) (h g : Held Elem) : floatPower lib (.array .bool h) (.array .bool g) = .error := by
  rw [floatPower_array]
  unfold floatPowerArrays
  cases broadcastShapes h.view.shape g.view.shape with
  | none => rfl
  | some out =>
    dsimp only
    rw [show promote .bool .bool = .bool from by decide]
    split
    · rfl
    · rfl

/-- C105: with a complex128 operand a complex64 operand counts as zero, whatever its elements are: the power depends on neither part of it. -/
theorem C105_complex_counterexample (lib : PowLib) {h g : Held Elem} (hw : h.view.WF) (gw : g.view.WF) (hal : AlignedAs .c64 h.view)
    (gal : AlignedAs .c128 g.view) (ht : Typed .c64 h) (gt : Typed .c128 g) {out : List Nat}
    (ho : IsBroadcast h.view.shape g.view.shape out) :
    ∃ q, floatPower lib (.array .c64 h) (.array .c128 g) = .ok (.c128, q) ∧ q.shape = out ∧ ∀ i, InShape out i →
      ∃ v1 v2, (g.nd.broadcast out).get i = .cpx v1 v2 ∧
        q.at? i = some (.cpx (lib.cpx (.num 0, .num 0) (v1, v2)).1 (lib.cpx (.num 0, .num 0) (v1, v2)).2) := by
  have hp : promote .c64 .c128 = .c128 := by decide
  obtain ⟨q, h1, h2⟩ := (floatPower_is lib (a := .c64) (b := .c128) hw gw hal gal (by decide) (r := .c128) (t := true) (by rw [hp]; rfl)).2 out ho
  obtain ⟨q1, q2, q3⟩ := Arr.is_iff.1 h2
  obtain ⟨b1, b2⟩ := broadcastsTo_of ho
  refine ⟨q, h1, q1, fun i hi => ?_⟩
  have tx := typed_broadcast ht b1 hi
  have ty := typed_broadcast gt b2 hi
  have e := q3 i hi
  dsimp only at e
  generalize (h.nd.broadcast out).get i = x at tx e
  generalize (g.nd.broadcast out).get i = y at ty e ⊢
  rw [hp, castElem_self] at e
  cases x <;> first | exact tx.elim | (obtain ⟨_, _, h, _⟩ := tx; cases h; done) | skip
  cases y <;> first | exact ty.elim | (obtain ⟨_, _, h, _⟩ := ty; cases h; done) | skip
  exact ⟨_, _, rfl, e⟩

example : floatPower productLib (.array .c64 (stored .c64 [1] [.cpx (.num 3) (.num 1)])) (.array .c128 (stored .c128 [1] [.cpx (.num 2) (.num 0)])) =
    .ok (.c128, ⟨[1], [.cpx (.num 0) (.num 0)]⟩) ∧
    floatPower productLib (.array .c128 (stored .c128 [1] [.cpx (.num 3) (.num 1)])) (.array .c128 (stored .c128 [1] [.cpx (.num 2) (.num 0)])) =
    .ok (.c128, ⟨[1], [.cpx (.num 6) (.num 0)]⟩) := by decide +kernel

/-- C105: two numbers, and a number with an array of rank 0, give an array of shape `(1,)`; NumPy gives a result of rank 0. A complex Python number
is refused. -/
theorem C105_scalar_counterexample (lib : PowLib) {s t : PyScalar} {x y : Flt ℚ} (hs : pyF64 s = some x) (ht : pyF64 t = some y) :
    (∃ q, floatPower lib (.number s) (.number t) = .ok (.f64, q) ∧ q.shape = [1]) ∧
      (∀ u v w, floatPower lib w (.number (.complex u v)) = .error ∧ floatPower lib (.number (.complex u v)) w = .error) := by
  refine ⟨?_, fun u v w => ⟨?_, rfl⟩⟩
  · have hx : powOperand (.number s) = some (.f64, fullOne .f64 x) := by
      show (pyF64 s).map _ = _
      rw [hs]
      rfl
    have hy : powOperand (.number t) = some (.f64, fullOne .f64 y) := by
      show (pyF64 t).map _ = _
      rw [ht]
      rfl
    unfold floatPower
    rw [hx, hy]
    have hp : promote .f64 .f64 = .f64 := by decide
    obtain ⟨q, h1, h2⟩ := (floatPower_is lib (a := .f64) (b := .f64) (h := fullOne .f64 x) (g := fullOne .f64 y) (held_of_wf _ _ _) (held_of_wf _ _ _)
      ⟨rfl, cStrides_dvd _ _⟩ ⟨rfl, cStrides_dvd _ _⟩ (by decide) (r := .f64) (t := true) (by rw [hp]; rfl)).2 [1] (broadcastShapes_iff.1 (by rfl))
    exact ⟨q, h1, h2.1⟩
  · unfold floatPower
    cases powOperand w <;> rfl

end Props
