import Verif.Spec.Arith
import Verif.Model.Arith
import Verif.Lemmas.Moments
import Verif.Props.Cast
import Verif.Props.DType
import Verif.Props.FloatOps
import Verif.Props.IntOps
/-!
# Lemmas: arithmetic of two arrays
-/

namespace Rumpy
open Spec Props

/-! ### The arrays -/

/-- The dtype an operand is converted to; the other operand has the dtype `b`. -/
def workL (div : Bool) (a b : DType) : DType :=
  if div = true ∧ isIntegerKind a = true then (if isIntegerKind b = true then .f64 else floatTarget a) else a

theorem collapse_ok {d : DType} {r : Arr (Outcome Elem)} {s : List Nat} {f : List Nat → Outcome Elem} (hr : r.Is ⟨s, f⟩)
    (hf : ∀ i, InShape s i → ∃ e, f i = .ok e) :
    ∃ q, collapse d r = .ok (d, q) ∧ q.shape = s ∧ q.data.length = size s ∧ ∀ i, InShape s i → ∃ e, f i = .ok e ∧ q.at? i = some e := by
  have hd : r.data = (indices s).map f := hr.2
  have hall : ∀ o ∈ r.data, ∃ e, o = .ok e := by
    intro o ho
    rw [hd] at ho
    obtain ⟨i, hi, rfl⟩ := List.mem_map.1 ho
    exact hf i ((mem_indices).1 hi)
  have hn : r.data.any (fun o => decide (o = .panic)) = false := by
    rw [List.any_eq_false]
    intro o ho
    obtain ⟨e, rfl⟩ := hall o ho
    simp
  unfold collapse
  rw [hn]
  refine ⟨⟨r.shape, r.data.map fun o => match o with | .ok x => x | _ => zeroElem d⟩, rfl, hr.1, ?_, ?_⟩
  · show (List.map _ r.data).length = _
    rw [List.length_map]
    exact (Arr.is_iff.1 hr).2.1
  · intro i hi
    obtain ⟨e, he⟩ := hf i hi
    refine ⟨e, he, ?_⟩
    have := hr.at? (idx := i) hi
    unfold Arr.at? at this ⊢
    dsimp only at this ⊢
    rw [List.getElem?_map, this]
    dsimp only [Option.map_some]
    rw [he]

theorem collapse_panic {d : DType} {r : Arr (Outcome Elem)} {s : List Nat} {f : List Nat → Outcome Elem} (hr : r.Is ⟨s, f⟩)
    (hf : ∃ i, InShape s i ∧ f i = .panic) : collapse d r = .panic := by
  have hd : r.data = (indices s).map f := hr.2
  obtain ⟨i, hi, he⟩ := hf
  unfold collapse
  rw [if_pos]
  rw [List.any_eq_true]
  exact ⟨.panic, by rw [hd]; exact List.mem_map.2 ⟨i, mem_indices.2 hi, he⟩, by simp⟩

/-- One pass over two arrays. -/
theorem arithDirect_ok (out : Bool) (pw : Powf) (neg : Bool) (op : ArithOp) (a b : DType) {h g : Held Elem} (hw : h.view.WF) (gw : g.view.WF)
    {s : List Nat} (ho : IsBroadcast h.view.shape g.view.shape s)
    (hf : ∀ i, InShape s i → ∃ e, arithElem out pw neg op a b ((h.nd.broadcast s).get i) ((g.nd.broadcast s).get i) = .ok e) :
    ∃ q, arithDirect out pw neg op a b h g = .ok (promote a b, q) ∧ q.shape = s ∧ q.data.length = size s ∧
      ∀ i, InShape s i → ∃ e, arithElem out pw neg op a b ((h.nd.broadcast s).get i) ((g.nd.broadcast s).get i) = .ok e ∧ q.at? i = some e := by
  obtain ⟨r, h1, h2⟩ := binaryOp_is (arithTyped out op a b) (arithElem out pw neg op a b) hw gw ho (.ok (zeroElem (promote a b)))
  unfold arithDirect
  rw [h1]
  exact collapse_ok h2 hf

theorem arithDirect_panic (out : Bool) (pw : Powf) (neg : Bool) (op : ArithOp) (a b : DType) {h g : Held Elem} (hw : h.view.WF) (gw : g.view.WF)
    {s : List Nat} (ho : IsBroadcast h.view.shape g.view.shape s)
    (hf : ∃ i, InShape s i ∧ arithElem out pw neg op a b ((h.nd.broadcast s).get i) ((g.nd.broadcast s).get i) = .panic) :
    arithDirect out pw neg op a b h g = .panic := by
  obtain ⟨r, h1, h2⟩ := binaryOp_is (arithTyped out op a b) (arithElem out pw neg op a b) hw gw ho (.ok (zeroElem (promote a b)))
  unfold arithDirect
  rw [h1]
  exact collapse_panic h2 hf

theorem arithDirect_error_iff (out : Bool) (pw : Powf) (neg : Bool) (op : ArithOp) (a b : DType) {h g : Held Elem} (hw : h.view.WF)
    (gw : g.view.WF) : arithDirect out pw neg op a b h g = .error ↔ ¬ ∃ s, IsBroadcast h.view.shape g.view.shape s := by
  have key := C15_binary_succeeds_iff (arithTyped out op a b) (arithElem out pw neg op a b) h.mem g.mem h.view g.view hw gw
    (.ok (zeroElem (promote a b)))
  unfold arithDirect
  rw [← key]
  cases binaryOp (arithTyped out op a b) (arithElem out pw neg op a b) h.mem g.mem h.view g.view (.ok (zeroElem (promote a b))) with
  | none => simp
  | some r =>
    simp only [Option.isSome_some, not_true, iff_false]
    show collapse _ _ ≠ _
    unfold collapse
    split <;> intro hc <;> cases hc

/-- The converted operand. -/
theorem recast_get {a b : DType} (ha : a.Real) (hne : a ≠ b) {h : Held Elem} (hw : h.view.WF) {s : List Nat} (hb : BroadcastsTo h.view.shape s)
    (hsz : 0 < DType.itemsize b) :
    (recast a b h).view.WF ∧ (recast a b h).view.shape = h.view.shape ∧
      ∀ i, InShape s i → ((recast a b h).nd.broadcast s).get i = castElem a b ((h.nd.broadcast s).get i) := by
  have his := C70_elementwise a b h hw (by
    rintro (h1 | h1)
    · exact absurd h1 hne
    · cases a <;> first | exact ha.elim | (cases h1))
  have hs : (recast a b h).view.shape = h.view.shape := his.1
  refine ⟨held_of_wf _ _ _, hs, ?_⟩
  intro i hi
  have hd := his.denote hsz (zeroElem b)
  have hin := inShape_broadcast hb hi
  show (recast a b h).nd.get _ = castElem a b (h.nd.get _)
  have e : (recast a b h).nd.shape = h.nd.shape := hs
  rw [e]
  exact hd.2 _ (by
    show InShape (recast a b h).view.shape _
    rw [hs]
    exact hin)

theorem floatTarget_size (d : DType) : 0 < DType.itemsize (floatTarget d) := by
  unfold floatTarget
  split
  · decide
  · split <;> decide

theorem floatTarget_ne {d : DType} (h : isIntegerKind d = true) : d ≠ floatTarget d := by
  intro hc
  have : isIntegerKind (floatTarget d) = false := by
    unfold floatTarget
    split
    · decide
    · split <;> decide
  rw [← hc, h] at this
  cases this

theorem broadcastsTo_of {a b s : List Nat} (h : IsBroadcast a b s) : BroadcastsTo a s ∧ BroadcastsTo b s := by
  obtain ⟨h1, h2, -⟩ := C09_broadcast_least _ _ _ (broadcastShapes_iff.2 h)
  exact ⟨h1, h2⟩

/-- Whether the output array reaches the operation. -/
def outOf (out div : Bool) (a b : DType) : Bool := if div && (isIntegerKind a || isIntegerKind b) then false else out

/-- The operation is one pass over the converted operands. -/
theorem arith_eq (out : Bool) (pw : Powf) (neg : Bool) (op : ArithOp) {a b : DType} (ha : a.Real) (hb : b.Real) (h g : Held Elem) :
    arith out pw neg op a b h g =
      arithDirect (outOf out (decide (op = .div)) a b) pw neg op (workL (decide (op = .div)) a b) (workL (decide (op = .div)) b a)
        (if workL (decide (op = .div)) a b = a then h else recast a (workL (decide (op = .div)) a b) h)
        (if workL (decide (op = .div)) b a = b then g else recast b (workL (decide (op = .div)) b a) g) := by
  unfold arith
  by_cases hd : op = .div
  · cases hA : isIntegerKind a <;> cases hB : isIntegerKind b
    · simp [workL, outOf, hd, hA, hB]
    · have := floatTarget_ne hB
      simp [workL, outOf, hd, hA, hB, Ne.symm this]
    · have := floatTarget_ne hA
      simp [workL, outOf, hd, hA, hB, Ne.symm this]
    · have h1 : ¬ DType.f64 = a := by rintro rfl; cases hA
      have h2 : ¬ DType.f64 = b := by rintro rfl; cases hB
      simp [workL, outOf, hd, hA, hB, h1, h2]
  · simp [workL, outOf, hd]

/-- An element of an operand after the conversion. -/
def operand (div : Bool) (a b : DType) (x : Elem) : Elem := castElem a (workL div a b) x

theorem work_get {div : Bool} {a b : DType} (ha : a.Real) {h : Held Elem} (hw : h.view.WF) {s : List Nat} (hs : BroadcastsTo h.view.shape s) :
    let w := workL div a b
    let k := if w = a then h else recast a w h
    k.view.WF ∧ k.view.shape = h.view.shape ∧
      ∀ i, InShape s i → (k.nd.broadcast s).get i = operand div a b ((h.nd.broadcast s).get i) := by
  intro w k
  by_cases he : w = a
  · have hk : k = h := if_pos he
    rw [hk]
    refine ⟨hw, rfl, fun i _ => ?_⟩
    unfold operand castElem
    rw [if_pos (show a = workL div a b from he.symm)]
  · have hk : k = recast a w h := if_neg he
    rw [hk]
    refine recast_get ha (fun hc => he hc.symm) hw hs ?_
    show 0 < DType.itemsize (workL div a b)
    have he' : ¬ workL div a b = a := he
    unfold workL at he' ⊢
    split
    · split
      · decide
      · exact floatTarget_size a
    · rename_i hn
      rw [if_neg hn] at he'
      exact absurd rfl he'

/-- One element of the result from the elements of the operands. -/
def elemOp (out : Bool) (pw : Powf) (neg : Bool) (op : ArithOp) (a b : DType) (x y : Elem) : Outcome Elem :=
  arithElem (outOf out (decide (op = .div)) a b) pw neg op (workL (decide (op = .div)) a b) (workL (decide (op = .div)) b a)
    (operand (decide (op = .div)) a b x) (operand (decide (op = .div)) b a y)

/-- The dtype of the result. -/
def resultOf (op : ArithOp) (a b : DType) : DType := promote (workL (decide (op = .div)) a b) (workL (decide (op = .div)) b a)

/-- Arithmetic of two arrays, element by element. -/
theorem arith_ok (out : Bool) (pw : Powf) (neg : Bool) (op : ArithOp) {a b : DType} (ha : a.Real) (hb : b.Real) {h g : Held Elem}
    (hw : h.view.WF) (gw : g.view.WF) {s : List Nat} (ho : IsBroadcast h.view.shape g.view.shape s)
    (hf : ∀ i, InShape s i → ∃ e, elemOp out pw neg op a b ((h.nd.broadcast s).get i) ((g.nd.broadcast s).get i) = .ok e) :
    ∃ q, arith out pw neg op a b h g = .ok (resultOf op a b, q) ∧ q.shape = s ∧ q.data.length = size s ∧
      ∀ i, InShape s i → ∃ e, elemOp out pw neg op a b ((h.nd.broadcast s).get i) ((g.nd.broadcast s).get i) = .ok e ∧ q.at? i = some e := by
  obtain ⟨b1, b2⟩ := broadcastsTo_of ho
  obtain ⟨w1, s1, e1⟩ := work_get (div := decide (op = .div)) (b := b) ha hw b1
  obtain ⟨w2, s2, e2⟩ := work_get (div := decide (op = .div)) (b := a) hb gw b2
  rw [arith_eq out pw neg op ha hb]
  obtain ⟨q, h1, h2, h3, h4⟩ := arithDirect_ok (outOf out (decide (op = .div)) a b) pw neg op (workL (decide (op = .div)) a b)
    (workL (decide (op = .div)) b a) w1 w2 (s := s) (by rw [s1, s2]; exact ho) (by
      intro i hi
      rw [e1 i hi, e2 i hi]
      exact hf i hi)
  refine ⟨q, h1, h2, h3, fun i hi => ?_⟩
  have := h4 i hi
  rw [e1 i hi, e2 i hi] at this
  exact this

theorem arith_panic (out : Bool) (pw : Powf) (neg : Bool) (op : ArithOp) {a b : DType} (ha : a.Real) (hb : b.Real) {h g : Held Elem}
    (hw : h.view.WF) (gw : g.view.WF) {s : List Nat} (ho : IsBroadcast h.view.shape g.view.shape s)
    (hf : ∃ i, InShape s i ∧ elemOp out pw neg op a b ((h.nd.broadcast s).get i) ((g.nd.broadcast s).get i) = .panic) :
    arith out pw neg op a b h g = .panic := by
  obtain ⟨b1, b2⟩ := broadcastsTo_of ho
  obtain ⟨w1, s1, e1⟩ := work_get (div := decide (op = .div)) (b := b) ha hw b1
  obtain ⟨w2, s2, e2⟩ := work_get (div := decide (op = .div)) (b := a) hb gw b2
  rw [arith_eq out pw neg op ha hb]
  refine arithDirect_panic _ pw neg op _ _ w1 w2 (s := s) (by rw [s1, s2]; exact ho) ?_
  obtain ⟨i, hi, he⟩ := hf
  refine ⟨i, hi, ?_⟩
  rw [e1 i hi, e2 i hi]
  exact he

theorem work_shape {div : Bool} {a b : DType} (h : Held Elem) (hw : h.view.WF) :
    let k := if workL div a b = a then h else recast a (workL div a b) h
    k.view.WF ∧ (a.Real → k.view.shape = h.view.shape) := by
  intro k
  by_cases he : workL div a b = a
  · have hk : k = h := if_pos he
    rw [hk]
    exact ⟨hw, fun _ => rfl⟩
  · have hk : k = recast a (workL div a b) h := if_neg he
    rw [hk]
    refine ⟨held_of_wf _ _ _, fun ha => ?_⟩
    exact (C70_elementwise a (workL div a b) h hw (by
      rintro (h1 | h1)
      · exact absurd h1.symm he
      · cases a <;> first | exact ha.elim | (cases h1))).1

theorem arith_error_iff (out : Bool) (pw : Powf) (neg : Bool) (op : ArithOp) {a b : DType} (ha : a.Real) (hb : b.Real) {h g : Held Elem}
    (hw : h.view.WF) (gw : g.view.WF) :
    arith out pw neg op a b h g = .error ↔ ¬ ∃ s, IsBroadcast h.view.shape g.view.shape s := by
  obtain ⟨w1, s1⟩ := work_shape (div := decide (op = .div)) (a := a) (b := b) h hw
  obtain ⟨w2, s2⟩ := work_shape (div := decide (op = .div)) (a := b) (b := a) g gw
  rw [arith_eq out pw neg op ha hb, arithDirect_error_iff _ pw neg op _ _ w1 w2, s1 ha]
  have : (if workL (decide (op = .div)) b a = b then g else recast b (workL (decide (op = .div)) b a) g).view.shape = g.view.shape := s2 hb
  rw [this]

/-! ### The elements -/

def realTypes : List DType := [.bool, .u8, .i8, .u16, .i16, .u32, .i32, .u64, .i64, .f16, .f32, .f64]

theorem mem_realTypes {a : DType} (h : a.Real) : a ∈ realTypes := by
  cases a <;> first | exact h.elim | simp [realTypes]

theorem real_numeric {a : DType} (h : a.Real) : a.Numeric := by
  cases a <;> first | exact h.elim | trivial

/-- What the conversions do when the result is a float. -/
theorem float_table : ∀ a ∈ realTypes, ∀ b ∈ realTypes, ∀ div : Bool,
    DType.isFloat (promote (workL div a b) (workL div b a)) = true →
      (((a = .i64 ∨ a = .u64) ∧ promote (workL div a b) (workL div b a) = .f64 ∧ (workL div a b = a ∨ workL div a b = .f64)) ∨
        (a ≠ .i64 ∧ a ≠ .u64 ∧ fitsTable a (promote (workL div a b) (workL div b a)) = true ∧
          (workL div a b = a ∨ (isIntegerKind a = true ∧ DType.isFloat (workL div a b) = true ∧ fitsTable a (workL div a b) = true)))) ∧
      (workL div a b = workL div b a → workL div a b = promote (workL div a b) (workL div b a)) := by
  decide +kernel

theorem result_symm (div : Bool) {a b : DType} (ha : a.Real) (hb : b.Real) :
    promote (workL div a b) (workL div b a) = promote (workL div b a) (workL div a b) ∧ (workL div a b).Real := by
  have key : ∀ a ∈ realTypes, ∀ b ∈ realTypes, ∀ div : Bool,
      promote (workL div a b) (workL div b a) = promote (workL div b a) (workL div a b) ∧ (workL div a b).Real := by decide +kernel
  exact key a (mem_realTypes ha) b (mem_realTypes hb) div

theorem isFlt_of_fits {a r : DType} (ha : a.Real) (hr : DType.isFloat r = true) (hf : fitsTable a r = true) {p : Nat} {lo hi : Int}
    (hfm : r.format = some (p, lo, hi)) {x : Elem} (hx : x.OfType a) {u v : Flt ℚ} (hp : x.parts = some (u, v)) : IsFlt p lo hi u := by
  have hrn : r.Real := by cases r <;> first | (cases hr; done) | trivial
  have hfits := (fits_iff (real_numeric ha) (real_numeric hrn)).2 hf
  cases u with
  | num q =>
    have hv : v = .num 0 := by
      cases x <;> cases a <;> first | exact ha.elim | exact hx.elim | (cases hp; rfl)
    rw [hv] at hp
    have hn := number_of_parts hp
    have hh := hfits _ (holds_of_ofType ha hx hn)
    cases r <;> first | (cases hr; done) | skip
    all_goals
      cases hfm
      exact hh.1
  | _ => trivial

theorem parts_real {a : DType} (ha : a.Real) {x : Elem} (hx : x.OfType a) : ∃ u, x.parts = some (u, .num 0) := by
  cases x <;> cases a <;> first | exact ha.elim | exact hx.elim | exact ⟨_, rfl⟩

theorem isFloat_cases {r : DType} (h : DType.isFloat r = true) : r = .f16 ∨ r = .f32 ∨ r = .f64 := by
  cases r <;> first | (cases h; done) | simp

/-- An operand of an operation with a float result. -/
theorem operand_float {div : Bool} {a b : DType} (ha : a.Real) (hb : b.Real) {p : Nat} {lo hi : Int}
    (hfl : DType.isFloat (promote (workL div a b) (workL div b a)) = true)
    (hfm : (promote (workL div a b) (workL div b a)).format = some (p, lo, hi)) {x : Elem} (hx : x.OfType a) :
    ∃ u v, x.parts = some (u, .num 0) ∧ readF64 (operand div a b x) = some v ∧ IsRounding p lo hi u v ∧ IsFlt p lo hi v ∧
      (workL div a b = workL div b a → operand div a b x = .flt v) := by
  obtain ⟨ht, hsame⟩ := float_table a (mem_realTypes ha) b (mem_realTypes hb) div hfl
  obtain ⟨u, hu⟩ := parts_real ha hx
  refine ⟨u, ?_⟩
  generalize hrr : promote (workL div a b) (workL div b a) = r at *
  have hself : workL div a b = a → operand div a b x = x := by
    intro he
    unfold operand castElem
    rw [if_pos he.symm]
  rcases ht with ⟨h64, hr, hw⟩ | ⟨h1, h2, hfit, hw⟩
  · -- 64-bit integers
    subst hr
    cases hfm
    have hxi : ∃ n : Int, x = .int n ∧ n.natAbs < 2 ^ 65 := by
      rcases h64 with rfl | rfl
      · cases x <;> first | exact hx.elim | skip
        obtain ⟨l, g, hr, h1, h2⟩ := hx
        cases hr
        exact ⟨_, rfl, by omega⟩
      · cases x <;> first | exact hx.elim | skip
        obtain ⟨l, g, hr, h1, h2⟩ := hx
        cases hr
        exact ⟨_, rfl, by omega⟩
    obtain ⟨n, rfl, hn⟩ := hxi
    cases hu
    have hround : IsRounding 53 (-1074) 971 (.num (n : ℚ)) (.num (intToF64 n : ℚ)) ∧ IsFlt 53 (-1074) 971 (.num (intToF64 n : ℚ)) := by
      rw [← intToF64_round hn]
      exact ⟨toFormat_rounding (by norm_num) (by norm_num) (.num (n : ℚ)), toFormat_isFlt (by norm_num) (by norm_num) (.num (n : ℚ))⟩
    refine ⟨.num (intToF64 n), rfl, ?_, hround.1, hround.2, ?_⟩
    · rcases hw with hw | hw
      · rw [hself hw]; rfl
      · have hne : a ≠ workL div a b := by rw [hw]; rcases h64 with rfl | rfl <;> decide
        unfold operand
        rw [castElem_real ha hne, hw]; rfl
    · intro he
      have hw' := hsame he
      have hne : a ≠ workL div a b := by rw [hw']; rcases h64 with rfl | rfl <;> decide
      unfold operand
      rw [castElem_real ha hne, hw']; rfl
  · have hflt := isFlt_of_fits ha hfl hfit hfm hx hu
    have hread : readF64 x = some u := by
      cases x with
      | int n =>
        have hn : n.natAbs ≤ 2 ^ 53 := by
          cases a <;> first | exact ha.elim | exact absurd rfl h1 | exact absurd rfl h2 | exact hx.elim | skip
          all_goals
            obtain ⟨l, g, hr, h1, h2⟩ := hx
            cases hr <;> omega
        cases hu
        show some (Flt.num _) = _
        rw [intToF64_exact hn]
      | bool c => cases hu; rfl
      | flt y => cases hu; rfl
      | cpx _ _ => cases a <;> first | exact ha.elim | exact hx.elim
      | text _ => cases a <;> first | exact ha.elim | exact hx.elim
    have hop : (workL div a b = a ∧ operand div a b x = x) ∨ (operand div a b x = .flt u) := by
      rcases hw with hw | ⟨hi, hwf, hwt⟩
      · exact Or.inl ⟨hw, hself hw⟩
      · right
        have hne : a ≠ workL div a b := by
          intro hc
          rw [← hc] at hwf
          cases a <;> first | (cases hwf; done) | (cases hi; done)
        unfold operand
        rw [castElem_real ha hne, hread]
        rcases isFloat_cases hwf with hc | hc | hc
        · have := isFlt_of_fits ha hwf hwt (by rw [hc]; rfl) hx hu
          rw [hc]
          show Elem.flt (toFormat _ _ _ u) = _
          cases u <;> first | rfl | (show Elem.flt (roundBin _ _ _ _) = _; rw [roundBin_exact this])
        · have := isFlt_of_fits ha hwf hwt (by rw [hc]; rfl) hx hu
          rw [hc]
          show Elem.flt (toFormat _ _ _ u) = _
          cases u <;> first | rfl | (show Elem.flt (roundBin _ _ _ _) = _; rw [roundBin_exact this])
        · rw [hc]; rfl
    refine ⟨u, hu, ?_, isRounding_self hflt, hflt, ?_⟩
    · rcases hop with ⟨_, h⟩ | h
      · rw [h]; exact hread
      · rw [h]; rfl
    · intro he
      rcases hop with ⟨h3, h⟩ | h
      · rw [h]
        have h4 := hsame he
        rw [h3] at h4
        have : DType.isFloat a = true := by rw [h4]; exact hfl
        cases x <;> cases a <;> first | exact ha.elim | exact hx.elim | (cases this; done) |
          (obtain ⟨_, _, hr, _⟩ := hx; cases hr; done) | (cases hu; rfl)
      · exact h

/-! ### The float operations against the specification -/

theorem infOf_sgn_mul (x : ℚ) (s : Int) (hs : s = 1 ∨ s = -1) :
    infOf ((Flt.num x).sgn * s) = if x = 0 then .nan else if 0 < x then infOf s else infOf (-s) := by
  have e : (Flt.num x).sgn = if 0 < x then 1 else if x < 0 then -1 else 0 := rfl
  rcases lt_trichotomy x 0 with h | h | h
  · rw [e, if_neg (not_lt.2 h.le), if_pos h, if_neg h.ne, if_neg (not_lt.2 h.le)]
    rcases hs with rfl | rfl <;> rfl
  · subst h
    rw [e, if_neg (lt_irrefl _), if_neg (lt_irrefl _), if_pos rfl, zero_mul]
    rfl
  · rw [e, if_pos h, if_neg h.ne', if_pos h]
    rcases hs with rfl | rfl <;> rfl

theorem kernel_isArith {p : Nat} {lo hi : Int} (hp : 0 < p) (hlh : lo ≤ hi) (neg : Bool) {op : ArithOp} {o : FltOp} (ho : arithFlt op = some o)
    (hop : op ∈ [ArithOp.add, .sub, .mul, .div]) (x y : Flt ℚ) : IsArith p lo hi op x y (floatKernel p lo hi neg o x y) := by
  have r : ∀ q : ℚ, IsRounding p lo hi (.num q) (roundBin p lo hi q) := fun q => toFormat_rounding hp hlh (.num q)
  simp only [List.mem_cons, List.not_mem_nil, or_false] at hop
  refine ⟨?_, ?_, ?_⟩
  · intro hn
    rcases hop with rfl | rfl | rfl | rfl <;> cases ho <;> (rcases hn with rfl | rfl <;> first | rfl | (cases x <;> rfl))
  · rintro u v q rfl rfl hq
    rcases hop with rfl | rfl | rfl | rfl <;> cases ho
    · cases hq; exact r _
    · cases hq; exact r _
    · cases hq; exact r _
    · unfold ArithOp.exactly at hq
      dsimp only at hq
      split at hq
      · cases hq
      · rename_i hv
        cases hq
        show IsRounding p lo hi _ (if v = 0 then _ else _)
        rw [if_neg hv]
        exact r _
  · intro hx hy hinf l hl
    rcases hop with rfl | rfl | rfl | rfl <;> cases ho <;> cases x <;> cases y <;>
      first
        | exact absurd rfl hx
        | exact absurd rfl hy
        | (exfalso; rcases hinf with (h | h) | (h | h) <;> cases h; done)
        | (cases hl; rfl)
        | skip
    · injection hl with hl
      rw [← hl]
      show (if _ then _ else _) = infOf (-1 * _)
      rw [mul_comm, infOf_sgn_mul _ _ (Or.inr rfl)]; rfl
    · injection hl with hl
      rw [← hl]
      show (if _ then _ else _) = infOf (_ * -1)
      rw [infOf_sgn_mul _ _ (Or.inr rfl)]; rfl
    · injection hl with hl
      rw [← hl]
      show (if _ then _ else _) = infOf (_ * 1)
      rw [infOf_sgn_mul _ _ (Or.inl rfl)]; rfl
    · injection hl with hl
      rw [← hl]
      show (if _ then _ else _) = infOf (1 * _)
      rw [mul_comm, infOf_sgn_mul _ _ (Or.inl rfl)]; rfl
    · rename_i y
      have hl : (if (Flt.num y) = .num 0 then none else some (infOf (-1 * (Flt.num y).sgn))) = some l := hl
      by_cases hy0 : y = 0
      · rw [if_pos (by rw [hy0])] at hl; cases hl
      · rw [if_neg (by intro hc; cases hc; exact hy0 rfl), mul_comm, infOf_sgn_mul _ _ (Or.inr rfl), if_neg hy0] at hl
        injection hl with hl
        rw [← hl]
        show (if y < 0 ∨ _ then _ else _) = _
        rcases lt_or_gt_of_ne hy0 with h | h
        · rw [if_pos (Or.inl h), if_neg (not_lt.2 h.le)]; rfl
        · rw [if_neg (by rintro (h1 | h1); exact absurd h1 (not_lt.2 h.le); exact hy0 h1.1), if_pos h]; rfl
    · rename_i y
      have hl : (if (Flt.num y) = .num 0 then none else some (infOf (1 * (Flt.num y).sgn))) = some l := hl
      by_cases hy0 : y = 0
      · rw [if_pos (by rw [hy0])] at hl; cases hl
      · rw [if_neg (by intro hc; cases hc; exact hy0 rfl), mul_comm, infOf_sgn_mul _ _ (Or.inl rfl), if_neg hy0] at hl
        injection hl with hl
        rw [← hl]
        show (if y < 0 ∨ _ then _ else _) = _
        rcases lt_or_gt_of_ne hy0 with h | h
        · rw [if_pos (Or.inl h), if_neg (not_lt.2 h.le)]; rfl
        · rw [if_neg (by rintro (h1 | h1); exact absurd h1 (not_lt.2 h.le); exact hy0 h1.1), if_pos h]; rfl

theorem nan_isArith {p : Nat} {lo hi : Int} (x : Flt ℚ) : IsArith p lo hi .div x (.num 0) .nan := by
  refine ⟨fun _ => rfl, ?_, ?_⟩
  · rintro u v q rfl hv hq
    cases hv
    cases hq
  · intro hx hy hinf l hl
    have hl : (if x.Infinite ∧ (Flt.num (0 : ℚ)).Infinite then some Flt.nan else if (Flt.num (0 : ℚ)).Infinite then some (.num 0)
      else if (Flt.num (0 : ℚ)) = .num 0 then none else some (infOf (x.sgn * (Flt.num (0 : ℚ)).sgn))) = some l := hl
    have hn : ¬ (Flt.num (0 : ℚ)).Infinite := by rintro (h | h) <;> cases h
    rw [if_neg (fun h => hn h.2), if_neg hn, if_pos rfl] at hl
    cases hl

theorem arithFlt_four {op : ArithOp} (hop : op ∈ [ArithOp.add, .sub, .mul, .div]) :
    ∃ o, arithFlt op = some o ∧ o ∈ [FltOp.add, .sub, .mul, .div] ∧ (o = .div ↔ op = .div) := by
  simp only [List.mem_cons, List.not_mem_nil, or_false] at hop
  rcases hop with rfl | rfl | rfl | rfl
  · exact ⟨.add, rfl, by simp, by simp⟩
  · exact ⟨.sub, rfl, by simp, by simp⟩
  · exact ⟨.mul, rfl, by simp, by simp⟩
  · exact ⟨.div, rfl, by simp, by simp⟩

/-- The operation on two `f64` stored in a narrower format. -/
theorem mixed_isArith {r : DType} (hfl : DType.isFloat r = true) {p : Nat} {lo hi : Int} (hfm : r.format = some (p, lo, hi)) (pw : Powf)
    (neg : Bool) {op : ArithOp} (hop : op ∈ [ArithOp.add, .sub, .mul, .div]) {x y : Flt ℚ} (hx : IsFlt p lo hi x) (hy : IsFlt p lo hi y) :
    ∃ w, writeF64 r (mixedReal pw neg op x y) = .flt w ∧ IsArith p lo hi op x y w := by
  obtain ⟨o, ho, hom, hdiv⟩ := arithFlt_four hop
  have hw : ∀ w, (r = .f64 → IsArith p lo hi op x y w) → (r ≠ .f64 → IsArith p lo hi op x y (toFormat p lo hi w)) →
      ∃ w', writeF64 r w = .flt w' ∧ IsArith p lo hi op x y w' := by
    intro w h1 h2
    rcases isFloat_cases hfl with rfl | rfl | rfl
    · cases hfm; exact ⟨_, rfl, h2 (by decide)⟩
    · cases hfm; exact ⟨_, rfl, h2 (by decide)⟩
    · exact ⟨_, rfl, h1 rfl⟩
  have main : ∀ w, w = floatKernel 53 (-1074) 971 neg o x y → ∃ w', writeF64 r w = .flt w' ∧ IsArith p lo hi op x y w' := by
    rintro w rfl
    apply hw
    · rintro rfl
      cases hfm
      exact kernel_isArith (by norm_num) (by norm_num) neg ho hop x y
    · intro hne
      have e : toFormat p lo hi (floatKernel 53 (-1074) 971 neg o x y) = floatKernel p lo hi neg o x y ∧ 0 < p ∧ lo ≤ hi := by
        rcases isFloat_cases hfl with rfl | rfl | rfl
        · cases hfm
          exact ⟨doubles_arithmetic (by constructor <;> norm_num) neg o hom x y hx hy, by norm_num, by norm_num⟩
        · cases hfm
          exact ⟨doubles_arithmetic (by constructor <;> norm_num) neg o hom x y hx hy, by norm_num, by norm_num⟩
        · exact absurd rfl hne
      rw [e.1]
      exact kernel_isArith e.2.1 e.2.2 neg ho hop x y
  unfold mixedReal
  rw [ho]
  dsimp only
  by_cases hd : o = .div
  · rw [if_pos hd]
    by_cases hz : fltEq y (.num 0) = true
    · rw [if_pos hz]
      have hy0 : y = .num 0 := by
        cases y <;> first | (cases hz; done) | skip
        have : decide _ = true := hz
        rw [of_decide_eq_true this]
      have hop' := hdiv.1 hd
      subst hy0 hop'
      exact hw .nan (fun _ => nan_isArith x) (fun _ => nan_isArith x)
    · rw [if_neg hz]
      exact main _ (by rw [hd])
  · rw [if_neg hd]
    exact main _ rfl

/-- One element of an operation with a float result. -/
theorem elemOp_float (out : Bool) (pw : Powf) (neg : Bool) {op : ArithOp} (hop : op ∈ [ArithOp.add, .sub, .mul, .div]) {a b : DType}
    (ha : a.Real) (hb : b.Real) {p : Nat} {lo hi : Int} (hfl : DType.isFloat (resultOf op a b) = true)
    (hfm : (resultOf op a b).format = some (p, lo, hi)) {x y : Elem} (hx : x.OfType a) (hy : y.OfType b) :
    ∃ u v u' v' w, x.parts = some (u, .num 0) ∧ y.parts = some (v, .num 0) ∧ IsRounding p lo hi u u' ∧ IsRounding p lo hi v v' ∧
      elemOp out pw neg op a b x y = .ok (.flt w) ∧ IsArith p lo hi op u' v' w := by
  unfold resultOf at hfl hfm
  obtain ⟨u, u', hu, hru, hiu, hfu, hsu⟩ := operand_float ha hb hfl hfm hx
  have hsym := (result_symm (decide (op = .div)) ha hb).1
  obtain ⟨v, v', hv, hrv, hiv, hfv, hsv⟩ := operand_float (b := a) hb ha (by rw [← hsym]; exact hfl) (by rw [← hsym]; exact hfm) hy
  refine ⟨u, v, u', v', ?_⟩
  suffices h : ∃ w, elemOp out pw neg op a b x y = .ok (.flt w) ∧ IsArith p lo hi op u' v' w by
    obtain ⟨w, h1, h2⟩ := h
    exact ⟨w, hu, hv, hiu, hiv, h1, h2⟩
  unfold elemOp arithElem
  by_cases he : workL (decide (op = .div)) a b = workL (decide (op = .div)) b a
  · rw [if_pos he, hsu he, hsv he.symm]
    have hr : promote (workL (decide (op = .div)) a b) (workL (decide (op = .div)) b a) = workL (decide (op = .div)) a b := by
      rw [← he]; exact C28_idem _
    rw [hr] at hfl hfm
    obtain ⟨o, ho, hom, hdiv⟩ := arithFlt_four hop
    refine ⟨_, rfl, ?_⟩
    unfold fltElem
    rw [ho]
    generalize workL (decide (op = .div)) a b = r at *
    rcases isFloat_cases hfl with rfl | rfl | rfl
    · cases hfm
      show IsArith _ _ _ _ _ _ (halfKernel neg o u' v')
      rw [C93_half_arithmetic neg o hom _ _ hfu hfv]
      exact kernel_isArith (by norm_num) (by norm_num) neg ho hop _ _
    · cases hfm
      exact kernel_isArith (by norm_num) (by norm_num) neg ho hop _ _
    · cases hfm
      exact kernel_isArith (by norm_num) (by norm_num) neg ho hop _ _
  · rw [if_neg he]
    unfold mixedElem
    rw [hru, hrv, Option.getD_some, Option.getD_some]
    obtain ⟨w, h1, h2⟩ := mixed_isArith hfl hfm pw neg hop hfu hfv
    exact ⟨w, by rw [h1], h2⟩

/-! ### Integers -/

theorem int_kind {d : DType} (h : isIntegerKind d = true) : ∃ lo hi, d.intRange = some (lo, hi) ∧ hi - lo + 1 = ((2 ^ DType.intBits d : Nat) : Int) ∧
    0 < DType.intBits d ∧ ∀ n, InIntRange (DType.isSigned d) (DType.intBits d) n ↔ lo ≤ n ∧ n ≤ hi := by
  cases d <;> first | (cases h; done) | skip
  all_goals
    refine ⟨_, _, rfl, by decide, by decide, fun n => ?_⟩
    simp only [InIntRange, DType.isSigned, DType.intBits, if_true, Bool.false_eq_true, if_false]
    omega

theorem intValue_ofInt {s : Bool} {w : Nat} (hw : 0 < w) {n : Int} (h : InIntRange s w n) : intValue s (BitVec.ofInt w n) = n := by
  unfold intValue InIntRange at *
  cases s
  · simp only [Bool.false_eq_true, if_false] at h ⊢
    rw [BitVec.toNat_ofInt]
    have h2 : ((2 ^ w : Nat) : Int) = 2 ^ w := by push_cast; rfl
    rw [h2, Int.emod_eq_of_lt h.1 h.2]
    omega
  · simp only [if_true] at h ⊢
    rw [BitVec.toInt_ofInt]
    obtain ⟨k, rfl⟩ : ∃ k, w = k + 1 := ⟨w - 1, by omega⟩
    have h2 : ((2 ^ (k + 1) : Nat) : Int) = 2 * 2 ^ k := by push_cast; ring
    rw [Nat.add_sub_cancel] at h
    generalize (2 : Int) ^ k = t at h h2
    rw [Int.bmod_def]
    rw [h2]
    by_cases h0 : 0 ≤ n
    · rw [Int.emod_eq_of_lt h0 (by omega), if_pos (by omega)]
    · have : n % (2 * t) = n + 2 * t := by
        rw [← Int.add_emod_right, Int.emod_eq_of_lt (by omega) (by omega)]
      rw [this, if_neg (by omega)]
      omega

/-- An integer operation on the elements of one dtype from the operation on the bits. -/
theorem sameElem_int {out : Bool} {pw : Powf} {neg : Bool} {op : ArithOp} {o : IntOp} (ho : arithInt op = some o) {d : DType}
    {m n : Int} {r : BitVec (DType.intBits d)}
    (hr : intBinary out (DType.isSigned d) o (BitVec.ofInt (DType.intBits d) m) (BitVec.ofInt (DType.intBits d) n) = .ok r) :
    sameElem out pw neg op d (.int m) (.int n) = .ok (.int (intValue (DType.isSigned d) r)) := by
  show intElem out op d m n = _
  unfold intElem
  rw [ho]
  dsimp only
  rw [hr]
  rfl

theorem ofType_int {d : DType} (h : isIntegerKind d = true) {x : Elem} (hx : x.OfType d) {lo hi : Int} (hr : d.intRange = some (lo, hi)) :
    ∃ n : Int, x = .int n ∧ lo ≤ n ∧ n ≤ hi := by
  cases d <;> first | (cases h; done) | skip
  all_goals
    cases x <;> first | exact hx.elim | skip
    obtain ⟨l, g, h0, h1, h2⟩ := hx
    rw [hr] at h0
    cases h0
    exact ⟨_, rfl, h1, h2⟩

theorem elemOp_same {out : Bool} {pw : Powf} {neg : Bool} {op : ArithOp} (hop : op ≠ .div) (d : DType) (x y : Elem) :
    elemOp out pw neg op d d x y = sameElem out pw neg op d x y := by
  have hw : workL (decide (op = .div)) d d = d := by
    unfold workL
    rw [if_neg]
    simp [hop]
  have hx : ∀ x, operand (decide (op = .div)) d d x = x := by
    intro x
    unfold operand castElem
    rw [hw, if_pos rfl]
  unfold elemOp arithElem
  rw [hw, if_pos rfl, hx, hx]
  unfold outOf
  simp [hop]

theorem resultOf_same {op : ArithOp} (hop : op ≠ .div) (a b : DType) : resultOf op a b = promote a b := by
  unfold resultOf workL
  simp [hop]

/-- Integers of one dtype. -/
theorem elemOp_whole (out : Bool) (pw : Powf) (neg : Bool) {op : ArithOp} {f : Int → Int → Int} (hf : op.whole = some f) {d : DType}
    (hd : isIntegerKind d = true) {lo hi : Int} (hr : d.intRange = some (lo, hi)) {x y : Elem} (hx : x.OfType d) (hy : y.OfType d) :
    ∃ m n k, x = .int m ∧ y = .int n ∧ elemOp out pw neg op d d x y = .ok (.int k) ∧ lo ≤ k ∧ k ≤ hi ∧ (hi - lo + 1) ∣ k - f m n := by
  obtain ⟨lo', hi', hr', hsz, hpos, hrange⟩ := int_kind hd
  rw [hr] at hr'
  cases hr'
  obtain ⟨m, rfl, m1, m2⟩ := ofType_int hd hx hr
  obtain ⟨n, rfl, n1, n2⟩ := ofType_int hd hy hr
  refine ⟨m, n, ?_⟩
  have hop : op ≠ .div := by rintro rfl; cases hf
  rw [elemOp_same hop]
  have em := intValue_ofInt hpos ((hrange m).2 ⟨m1, m2⟩)
  have en := intValue_ofInt hpos ((hrange n).2 ⟨n1, n2⟩)
  have fin : ∀ (o : IntOp) (r : BitVec (DType.intBits d)), arithInt op = some o →
      intBinary out (DType.isSigned d) o (BitVec.ofInt (DType.intBits d) m) (BitVec.ofInt (DType.intBits d) n) = .ok r →
      (hi - lo + 1) ∣ intValue (DType.isSigned d) r - f m n →
      ∃ k, Elem.int m = .int m ∧ Elem.int n = .int n ∧ sameElem out pw neg op d (.int m) (.int n) = .ok (.int k) ∧ lo ≤ k ∧ k ≤ hi ∧
        (hi - lo + 1) ∣ k - f m n := by
    intro o r ho hr hdvd
    have hk := (hrange _).1 (intValue_range (DType.isSigned d) r)
    exact ⟨_, rfl, rfl, sameElem_int ho hr, hk.1, hk.2, hdvd⟩
  obtain ⟨x1, y1, z1, a1, a2, a3, b1, b2, b3, -⟩ := C33_wrap out (DType.isSigned d) hpos (BitVec.ofInt (DType.intBits d) m)
    (BitVec.ofInt (DType.intBits d) n)
  obtain ⟨x2, y2, c1, c2, d1, d2⟩ := C33_maxmin out (DType.isSigned d) (BitVec.ofInt (DType.intBits d) m)
    (BitVec.ofInt (DType.intBits d) n)
  rw [em, en] at b1 b2 b3 d1 d2
  rw [← hsz] at b1 b2 b3
  cases op <;> cases hf
  · exact fin .add x1 rfl a1 b1
  · exact fin .sub y1 rfl a2 b2
  · exact fin .mul z1 rfl a3 b3
  · exact fin .maximum x2 rfl c1 (by rw [d1]; simp)
  · exact fin .minimum y2 rfl c2 (by rw [d2]; simp)

theorem writeF64_whole {r : DType} {lo hi : Int} (hri : isIntegerKind r = true) (hr : r.intRange = some (lo, hi)) {k : Int} (h1 : lo ≤ k) (h2 : k ≤ hi) :
    writeF64 r (.num (k : ℚ)) = .int k := by
  have e : fltToInt lo hi (.num (k : ℚ)) = k :=
    fltToInt_trunc ⟨le_refl _, by simp, mul_self_nonneg _⟩ h1 h2
  cases r <;> first | (cases hri; done) | skip
  all_goals
    cases hr
    show Elem.int (fltToInt _ _ _) = _
    rw [e]

theorem readF64_whole {x : Elem} {m : Int} (hx : x.whole = some m) (hm : m.natAbs ≤ 2 ^ 53) : readF64 x = some (.num (m : ℚ)) := by
  cases x <;> cases hx
  · rename_i c
    cases c <;> simp [readF64]
  · show some (Flt.num _) = _
    rw [intToF64_exact hm]

/-- Integers of two dtypes, of moderate size. -/
theorem elemOp_mixed_whole (out : Bool) (pw : Powf) (neg : Bool) {op : ArithOp} {f : Int → Int → Int} (hf : op.whole = some f) {a b : DType}
    (hab : a ≠ b) (hri : isIntegerKind (promote a b) = true) {lo hi : Int} (hr : (promote a b).intRange = some (lo, hi)) {x y : Elem} {m n : Int}
    (hx : x.whole = some m) (hy : y.whole = some n) (hm : m.natAbs ≤ 2 ^ 53) (hn : n.natAbs ≤ 2 ^ 53) (hk : (f m n).natAbs ≤ 2 ^ 53)
    (h1 : lo ≤ f m n) (h2 : f m n ≤ hi) : elemOp out pw neg op a b x y = .ok (.int (f m n)) := by
  have hop : op ≠ .div := by rintro rfl; cases hf
  have hw : ∀ a b, workL (decide (op = .div)) a b = a := by
    intro a b
    unfold workL
    rw [if_neg]
    simp [hop]
  have hid : ∀ a b x, operand (decide (op = .div)) a b x = x := by
    intro a b x
    unfold operand castElem
    rw [hw, if_pos rfl]
  unfold elemOp arithElem
  rw [hw, hw, if_neg hab, hid, hid]
  unfold mixedElem
  rw [readF64_whole hx hm, readF64_whole hy hn, Option.getD_some, Option.getD_some]
  have e : mixedReal pw neg op (.num (m : ℚ)) (.num (n : ℚ)) = .num ((f m n : Int) : ℚ) := by
    have hx := roundBin_exact (isFloat_small hk)
    unfold mixedReal
    cases op <;> cases hf
    · show roundBin 53 (-1074) 971 ((m : ℚ) + n) = _
      rw [← hx]; push_cast; rfl
    · show roundBin 53 (-1074) 971 ((m : ℚ) - n) = _
      rw [← hx]; push_cast; rfl
    · show roundBin 53 (-1074) 971 ((m : ℚ) * n) = _
      rw [← hx]; push_cast; rfl
    · show (if decide ((m : ℚ) < n) = true then Flt.num (n : ℚ) else Flt.num (m : ℚ)) = _
      by_cases h : m < n
      · rw [if_pos (by rw [decide_eq_true_iff]; exact_mod_cast h), max_eq_right h.le]
      · rw [if_neg (by rw [decide_eq_true_iff]; exact_mod_cast h), max_eq_left (not_lt.1 h)]
    · show (if decide ((n : ℚ) < m) = true then Flt.num (n : ℚ) else Flt.num (m : ℚ)) = _
      by_cases h : n < m
      · rw [if_pos (by rw [decide_eq_true_iff]; exact_mod_cast h), min_eq_right h.le]
      · rw [if_neg (by rw [decide_eq_true_iff]; exact_mod_cast h), min_eq_left (not_lt.1 h)]
  rw [e, writeF64_whole hri hr h1 h2]

/-- Whatever the operation, an element is computed or the program panics. -/
theorem intBinary_ne_error (out s : Bool) (o : IntOp) {w : Nat} (x y : BitVec w) : intBinary out s o x y ≠ .error := by
  intro h
  unfold intBinary at h
  cases out <;> cases o <;> simp only [Bool.false_eq_true, if_false, if_true, intTrait, intKernel, rustDiv, rustRem, rustDivEuclid] at h
  all_goals repeat' (first | (cases h; done) | split at h)

theorem outcome_ok {α : Type} {o : Outcome α} (h1 : o ≠ .error) (h2 : o ≠ .panic) : ∃ x, o = .ok x := by
  cases o with
  | ok x => exact ⟨x, rfl⟩
  | error => exact absurd rfl h1
  | panic => exact absurd rfl h2

theorem elemOp_ne_error (out : Bool) (pw : Powf) (neg : Bool) (op : ArithOp) (a b : DType) (x y : Elem) : elemOp out pw neg op a b x y ≠ .error := by
  intro h
  unfold elemOp arithElem at h
  split at h
  · unfold sameElem at h
    split at h <;> try (cases h; done)
    unfold intElem at h
    split at h
    · split at h
      · cases h
      · rename_i he
        exact intBinary_ne_error _ _ _ _ _ he
      · cases h
    · cases h
  · cases h

/-- The elements of a broadcast array are elements of the array. -/
theorem broadcast_mem {h : Held Elem} {s : List Nat} (hb : BroadcastsTo h.view.shape s) {i : List Nat} (hi : InShape s i) :
    ∃ j, InShape h.view.shape j ∧ (h.nd.broadcast s).get i = h.nd.get j :=
  ⟨_, inShape_broadcast hb hi, rfl⟩

theorem isFlt_writeF64 {r : DType} (hfl : DType.isFloat r = true) {p : Nat} {lo hi : Int} (hfm : r.format = some (p, lo, hi)) {u : Flt ℚ}
    (hu : IsFlt p lo hi u) : writeF64 r u = .flt u := by
  have e : toFormat p lo hi u = u := by
    cases u <;> first | rfl | exact roundBin_exact hu
  rcases isFloat_cases hfl with rfl | rfl | rfl <;> cases hfm
  · show Elem.flt _ = _; rw [e]
  · show Elem.flt _ = _; rw [e]
  · rfl

/-- `maximum` and `minimum` with a float result. -/
theorem elemOp_maxmin (out : Bool) (pw : Powf) (neg : Bool) {a b : DType} (ha : a.Real) (hb : b.Real) {p : Nat} {lo hi : Int}
    (hfl : DType.isFloat (promote a b) = true) (hfm : (promote a b).format = some (p, lo, hi)) {x y : Elem} (hx : x.OfType a) (hy : y.OfType b) :
    ∃ u v u' v' w w', x.parts = some (u, .num 0) ∧ y.parts = some (v, .num 0) ∧ IsRounding p lo hi u u' ∧ IsRounding p lo hi v v' ∧
      elemOp out pw neg .maximum a b x y = .ok (.flt w) ∧ elemOp out pw neg .minimum a b x y = .ok (.flt w') ∧
      (u' = .nan ∨ v' = .nan → w = .nan ∧ w' = .nan) ∧ (u' ≠ .nan → v' ≠ .nan → IsLarger u' v' w ∧ IsSmaller u' v' w') := by
  have hwk : ∀ a b, workL false a b = a := by
    intro a b
    unfold workL
    rw [if_neg]
    simp
  obtain ⟨u, u', hu, hru, hiu, hfu, hsu⟩ := operand_float (div := false) ha hb (by rw [hwk, hwk]; exact hfl) (by rw [hwk, hwk]; exact hfm) hx
  have hsym := C28_symm_partial (real_numeric ha) (real_numeric hb)
  obtain ⟨v, v', hv, hrv, hiv, hfv, hsv⟩ := operand_float (div := false) (b := a) hb ha (by rw [hwk, hwk, ← hsym]; exact hfl)
    (by rw [hwk, hwk, ← hsym]; exact hfm) hy
  rw [hwk, hwk] at hsu hsv
  have fin : ∀ w w', elemOp out pw neg .maximum a b x y = .ok (.flt w) → elemOp out pw neg .minimum a b x y = .ok (.flt w') →
      (∃ P Lo Hi, w = floatKernel P Lo Hi neg .maximum u' v' ∧ w' = floatKernel P Lo Hi neg .minimum u' v') →
      ∃ u v u' v' w w', x.parts = some (u, .num 0) ∧ y.parts = some (v, .num 0) ∧ IsRounding p lo hi u u' ∧ IsRounding p lo hi v v' ∧
      elemOp out pw neg .maximum a b x y = .ok (.flt w) ∧ elemOp out pw neg .minimum a b x y = .ok (.flt w') ∧
      (u' = .nan ∨ v' = .nan → w = .nan ∧ w' = .nan) ∧ (u' ≠ .nan → v' ≠ .nan → IsLarger u' v' w ∧ IsSmaller u' v' w') := by
    rintro w w' h1 h2 ⟨P, Lo, Hi, rfl, rfl⟩
    obtain ⟨k1, k2⟩ := C93_maximum P Lo Hi neg u' v'
    exact ⟨u, v, u', v', _, _, hu, hv, hiu, hiv, h1, h2, k1, k2⟩
  have hin : ∀ P Lo Hi, IsFlt p lo hi (floatKernel P Lo Hi neg .maximum u' v') ∧ IsFlt p lo hi (floatKernel P Lo Hi neg .minimum u' v') := by
    intro P Lo Hi
    obtain ⟨k1, k2⟩ := C93_maximum P Lo Hi neg u' v'
    by_cases hn : u' = .nan ∨ v' = .nan
    · rw [(k1 hn).1, (k1 hn).2]; exact ⟨trivial, trivial⟩
    · push Not at hn
      obtain ⟨⟨m1, -⟩, ⟨m2, -⟩⟩ := k2 hn.1 hn.2
      constructor
      · rcases m1 with h | h <;> rw [h] <;> assumption
      · rcases m2 with h | h <;> rw [h] <;> assumption
  have hopA : ∀ x, operand false a b x = x := by
    intro x; unfold operand castElem; rw [hwk, if_pos rfl]
  have hopB : ∀ x, operand false b a x = x := by
    intro x; unfold operand castElem; rw [hwk, if_pos rfl]
  rw [hopA] at hru hsu
  rw [hopB] at hrv hsv
  by_cases hab : a = b
  · subst hab
    rw [C28_idem] at hfl hfm
    rw [hsu rfl, hsv rfl]
    rw [hsu rfl] at hx
    rw [elemOp_same (by decide), elemOp_same (by decide)] at fin
    rw [hsu rfl, hsv rfl] at fin
    rw [elemOp_same (by decide), elemOp_same (by decide)]
    rcases isFloat_cases hfl with rfl | rfl | rfl
    · cases hfm
      refine fin _ _ rfl rfl ⟨24, -149, 104, ?_, ?_⟩
      · have := isFlt_writeF64 (r := .f16) rfl rfl (hin 24 (-149) 104).1
        injection this
      · have := isFlt_writeF64 (r := .f16) rfl rfl (hin 24 (-149) 104).2
        injection this
    · exact fin _ _ rfl rfl ⟨24, -149, 104, rfl, rfl⟩
    · exact fin _ _ rfl rfl ⟨53, -1074, 971, rfl, rfl⟩
  · have e : ∀ op : ArithOp, op ≠ .div → elemOp out pw neg op a b x y = .ok (writeF64 (promote a b) (mixedReal pw neg op u' v')) := by
      intro op hop
      unfold elemOp arithElem
      rw [show decide (op = .div) = false by simp [hop], hwk, hwk, if_neg hab, hopA, hopB]
      unfold mixedElem
      rw [hru, hrv]; rfl
    refine fin _ _ ?_ ?_ ⟨53, -1074, 971, rfl, rfl⟩
    · rw [e _ (by decide)]
      show Outcome.ok (writeF64 _ (floatKernel 53 (-1074) 971 neg .maximum u' v')) = _
      rw [isFlt_writeF64 hfl hfm (hin 53 (-1074) 971).1]
    · rw [e _ (by decide)]
      show Outcome.ok (writeF64 _ (floatKernel 53 (-1074) 971 neg .minimum u' v')) = _
      rw [isFlt_writeF64 hfl hfm (hin 53 (-1074) 971).2]

end Rumpy
