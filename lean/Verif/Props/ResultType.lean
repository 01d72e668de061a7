import Verif.Model.ResultType
import Verif.Lemmas.DTypeInfo
import Verif.Lemmas.TotalValues
import Verif.Props.DType
import Verif.Props.Arith
/-!
# C114: `result_type` of arrays, names and numbers
-/

namespace Props
open Rumpy Spec

/-- The dtype of an operand: that of the array, the one that is named, or the dtype of an array of such numbers. -/
def OperandHas : Operand → DType → Prop
  | .array d, t => ¬ IsText d ∧ t = d
  | .named s, t => parseDType s = some t
  | .bool _, t => t = .bool
  | .int n, t => (-(2 : Int) ^ 63 ≤ n ∧ n < 2 ^ 63) ∧ t = .i64
  | .float _, t => t = .f64
  | .complex _ _, t => t = .c128
  | .other, _ => False

theorem operandType_of {a : Operand} {t : DType} (h : OperandHas a t) : operandType a = some t := by
  cases a with
  | array d =>
    obtain ⟨h1, rfl⟩ := h
    show dtypeFromString (normalizeDtype (DType.name t)) = some t
    rw [dtypeFromString_eq]
    exact (C59_names_partial t h1).1
  | named s => exact (parseDType_normalize s).trans h
  | bool b => cases h; rfl
  | int n =>
    obtain ⟨h1, rfl⟩ := h
    unfold operandType
    dsimp only
    rw [if_pos h1]
  | float x => cases h; rfl
  | complex x y => cases h; rfl
  | other => exact h.elim

theorem resultLoop_of {args : List Operand} {ds : List DType} (h : List.Forall₂ OperandHas args ds) (c : DType) :
    resultLoop (some c) args = some (some (ds.foldl promote c)) := by
  induction h generalizing c with
  | nil => rfl
  | cons h1 _ ih =>
    unfold resultLoop
    rw [operandType_of h1]
    exact ih _

/-- C114.  `result_type` takes the dtypes of its operands and promotes them from left to right. -/
theorem C114_rule {args : List Operand} {ds : List DType} (h : List.Forall₂ OperandHas args ds) :
    resultTypeOf args = (resultType ds).map DType.name := by
  cases h with
  | nil => rfl
  | cons h1 h2 =>
    unfold resultTypeOf
    rw [if_neg (by simp)]
    unfold resultLoop
    rw [operandType_of h1]
    dsimp only
    rw [resultLoop_of h2]
    rfl

example : resultTypeOf [.array .i16, .named "<f4", .bool true, .int 7] = some "float64" :=
  C114_rule (ds := [.i16, .f32, .bool, .i64]) (.cons ⟨fun h => h, rfl⟩ (.cons (by show parseDType "<f4" = some DType.f32; decide +kernel)
    (.cons rfl (.cons ⟨by decide, rfl⟩ .nil))))

/-- C114 (partial): the dtype that is named can store every number of each operand's dtype.  Missing: 64-bit integers, so Python
integers too. -/
theorem C114_fits_partial {args : List Operand} {ds : List DType} (h : List.Forall₂ OperandHas args ds) (hne : args ≠ [])
    (hn : ∀ d ∈ ds, d.Numeric ∧ d ≠ .i64 ∧ d ≠ .u64) :
    ∃ r, resultTypeOf args = some (DType.name r) ∧ r.Numeric ∧ ∀ d ∈ ds, Fits d r := by
  cases h with
  | nil => exact absurd rfl hne
  | @cons a d args ds h1 h2 =>
    refine ⟨ds.foldl promote d, C114_rule (.cons h1 h2), ?_, C28_result_type_partial (d :: ds) _ rfl hn⟩
    have key : ∀ (l : List DType) (c : DType), c.Numeric → (∀ e ∈ l, e.Numeric) → (l.foldl promote c).Numeric := by
      intro l
      induction l with
      | nil => exact fun c hc _ => hc
      | cons e l ih => exact fun c hc hl => ih _ (promote_numeric hc (hl e (by simp))) fun x hx => hl x (by simp [hx])
    exact key ds d (hn d (by simp)).1 fun e he => (hn e (by simp [he])).1

example : ∃ r, resultTypeOf [.array .i16, .array .f16, .complex (.num 1) (.num 2)] = some (DType.name r) ∧ r.Numeric ∧
    ∀ d ∈ [DType.i16, .f16, .c128], Fits d r :=
  C114_fits_partial (.cons ⟨fun h => h, rfl⟩ (.cons ⟨fun h => h, rfl⟩ (.cons rfl .nil))) (by simp)
    (by simp only [List.mem_cons, List.not_mem_nil, or_false]; rintro d (rfl | rfl | rfl) <;> exact ⟨trivial, by decide, by decide⟩)

/-! ### What is refused -/

theorem resultLoop_none_iff (args : List Operand) (c : Option DType) :
    resultLoop c args = none ↔ ∃ a ∈ args, operandType a = none := by
  induction args generalizing c with
  | nil => simp [resultLoop]
  | cons a args ih =>
    unfold resultLoop
    cases hd : operandType a with
    | none => exact ⟨fun _ => ⟨a, by simp, hd⟩, fun _ => rfl⟩
    | some d =>
      dsimp only
      rw [ih]
      constructor
      · rintro ⟨x, hx, e⟩; exact ⟨x, by simp [hx], e⟩
      · rintro ⟨x, hx, e⟩
        rcases List.mem_cons.1 hx with rfl | hx
        · rw [hd] at e; cases e
        · exact ⟨x, hx, e⟩

theorem resultLoop_some {args : List Operand} {c : Option DType} {o : Option DType} (h : resultLoop c args = some o)
    (hc : c ≠ none ∨ args ≠ []) : ∃ d, o = some d := by
  induction args generalizing c with
  | nil =>
    cases c with
    | none => simp at hc
    | some d => cases h; exact ⟨d, rfl⟩
  | cons a args ih =>
    unfold resultLoop at h
    cases hd : operandType a with
    | none => rw [hd] at h; cases h
    | some d => rw [hd] at h; exact ih h (Or.inl (by simp))

/-- Without a dtype: an object of another kind, a string that names none, or an integer that is further from zero than every float64. -/
def Untyped : Operand → Prop
  | .named s => parseDType s = none
  | .int n => ∀ t, IsFloat 53 (-1074) 971 t → |t| < |(n : ℚ)|
  | .other => True
  | _ => False

theorem isFloat_negate {p : Nat} {lo hi : Int} {t : ℚ} (h : IsFloat p lo hi t) : IsFloat p lo hi (-t) := by
  obtain ⟨m, e, h1, h2, h3, h4⟩ := h
  exact ⟨-m, e, by rw [abs_neg]; exact h1, h2, h3, by rw [h4]; push_cast; ring⟩

theorem operandType_untyped {a : Operand} (h : operandType a = none) : Untyped a := by
  cases a with
  | array d =>
    exfalso
    have h' : dtypeFromString (normalizeDtype (DType.name d)) = none := h
    rw [dtypeFromString_eq] at h'
    by_cases ht : IsText d
    · cases d <;> first | exact ht.elim | (revert h'; show ¬ parseDType _ = none; first
        | (rw [show DType.name (DType.str _) = "str" from rfl]; decide +kernel)
        | (rw [show DType.name (DType.bytes _) = "bytes" from rfl]; decide +kernel))
    · rw [(C59_names_partial d ht).1] at h'; cases h'
  | named s => exact (parseDType_normalize s).symm.trans h
  | bool b => cases h
  | int n =>
    unfold operandType at h
    dsimp only at h
    by_cases hi : -(2 : Int) ^ 63 ≤ n ∧ n < 2 ^ 63
    · rw [if_pos hi] at h; cases h
    · rw [if_neg hi] at h
      have hr := toFormat_rounding (p := 53) (lo := -1074) (hi := 971) (by norm_num) (by norm_num) (.num (n : ℚ))
      unfold toFormat at hr
      dsimp only at hr
      unfold pyF64 at h
      dsimp only at h
      intro t ht
      cases hb : roundBin 53 (-1074) 971 (n : ℚ) with
      | num q => rw [hb] at h; cases h
      | posInf =>
        rw [hb] at hr
        have h1 := hr t ht
        have h2 := hr (-t) (isFloat_negate ht)
        exact lt_of_lt_of_le (abs_lt.2 ⟨by linarith, h1⟩) (le_abs_self _)
      | negInf =>
        rw [hb] at hr
        have h1 := hr t ht
        have h2 := hr (-t) (isFloat_negate ht)
        exact lt_of_lt_of_le (abs_lt.2 ⟨by linarith, by linarith⟩) (neg_le_abs _)
      | nan => rw [hb] at hr; exact hr.elim
  | float x => cases h
  | complex x y => cases h
  | other => trivial

/-- C114.  A call is refused only if there is nothing to go by: no operand at all, or one without a dtype. -/
theorem C114_refused {args : List Operand} (h : resultTypeOf args = none) : args = [] ∨ ∃ a ∈ args, Untyped a := by
  by_cases hne : args = []
  · exact Or.inl hne
  · right
    unfold resultTypeOf at h
    rw [if_neg hne] at h
    cases hl : resultLoop none args with
    | none =>
      obtain ⟨a, ha, e⟩ := (resultLoop_none_iff args none).1 hl
      exact ⟨a, ha, operandType_untyped e⟩
    | some o =>
      obtain ⟨d, rfl⟩ := resultLoop_some hl (Or.inr hne)
      rw [hl] at h
      cases h

/-- C114.  No operand, a string that names no dtype, and an object of another kind are refused. -/
theorem C114_refuses : resultTypeOf [] = none ∧ (∀ args, Operand.other ∈ args → resultTypeOf args = none) ∧
    ∀ args s, Operand.named s ∈ args → parseDType s = none → resultTypeOf args = none := by
  have key : ∀ args, ∀ a ∈ args, operandType a = none → resultTypeOf args = none := by
    intro args a ha e
    unfold resultTypeOf
    rw [if_neg (by rintro rfl; cases ha), (resultLoop_none_iff args none).2 ⟨a, ha, e⟩]
  exact ⟨rfl, fun args h => key args _ h rfl, fun args s h e => key args _ h ((parseDType_normalize s).trans e)⟩

example : resultTypeOf [.array .f32, .named "int7"] = none := C114_refuses.2.2 _ "int7" (by simp) (by decide +kernel)

/-! ### The dtype of a result -/

/-- C114.  For two arrays of real numbers `result_type` names the dtype of their sum, and of every result but a quotient's. -/
theorem C114_arrays (out : Bool) (pw : Powf) (neg : Bool) {op : ArithOp} (hop : op ≠ .div) {a b : DType} (ha : a.Real) (hb : b.Real)
    {h g : Held Elem} {r : DType} {q : Arr Elem} (hq : arith out pw neg op a b h g = .ok (r, q)) :
    resultTypeOf [.array a, .array b] = some (DType.name r) := by
  have hr : r = promote a b := by
    unfold arith at hq
    rw [if_neg (fun c => hop c.1), if_neg (fun c => hop c.1), if_neg (fun c => hop c.1)] at hq
    unfold arithDirect at hq
    split at hq
    · cases hq
    · unfold collapse at hq
      split_ifs at hq
      cases hq
      rfl
  have nt : ∀ {d : DType}, d.Real → ¬ IsText d := by
    intro d hd
    cases d <;> first | exact hd.elim | exact fun h => h
  rw [hr]
  exact C114_rule (args := [.array a, .array b]) (ds := [a, b]) (.cons ⟨nt ha, rfl⟩ (.cons ⟨nt hb, rfl⟩ .nil))

example : arith false noPow false .add .u8 .f16 (stored .u8 [1] [.int 3]) (stored .f16 [1] [.flt (.num (1 / 2))]) =
    .ok (.f16, ⟨[1], [.flt (.num (7 / 2))]⟩) ∧ resultTypeOf [.array .u8, .array .f16] = some "float16" := by
  have h : arith false noPow false .add .u8 .f16 (stored .u8 [1] [.int 3]) (stored .f16 [1] [.flt (.num (1 / 2))]) =
      .ok (.f16, ⟨[1], [.flt (.num (7 / 2))]⟩) := by decide +kernel
  exact ⟨h, C114_arrays false noPow false (op := .add) (by decide) (a := .u8) (b := .f16) trivial trivial h⟩

/-- C114.  With an array and one Python number in a sum, what `result_type` names is the dtype of the sum for every bool, for an
integer exactly if the array is int64 or float64, and for a float exactly if the array is float64. -/
theorem C114_numbers_iff {d : DType} (hd : d.Real) (b : Bool) {n : Int} (hn : -(2 : Int) ^ 63 ≤ n ∧ n < 2 ^ 63) (x : Flt ℚ) :
    resultTypeOf [.array d, .bool b] = some (DType.name d) ∧
    (resultTypeOf [.array d, .int n] = some (DType.name d) ↔ d = .i64 ∨ d = .f64) ∧
    (resultTypeOf [.array d, .float x] = some (DType.name d) ↔ d = .f64) := by
  have nt : ¬ IsText d := by cases d <;> first | exact hd.elim | exact fun h => h
  rw [C114_rule (args := [.array d, .bool b]) (ds := [d, .bool]) (.cons ⟨nt, rfl⟩ (.cons rfl .nil)),
    C114_rule (args := [.array d, .int n]) (ds := [d, .i64]) (.cons ⟨nt, rfl⟩ (.cons ⟨hn, rfl⟩ .nil)),
    C114_rule (args := [.array d, .float x]) (ds := [d, .f64]) (.cons ⟨nt, rfl⟩ (.cons rfl .nil))]
  cases d <;> first | exact hd.elim | decide +kernel

/-- C114 fails for an array and a Python number: `result_type(a, 1.0)` of a float32 array is float64, but `a + 1.0` is float32, and
`result_type(a, 1)` of a uint8 array is int64, but `a + 1` is uint8. -/
theorem C114_numbers_counterexample :
    (resultTypeOf [.array .f32, .float (.num 1)] = some "float64" ∧
      scalarOp noPow false .add .f32 (stored .f32 [1] [.flt (.num 3)]) (.float (.num 1)) = .ok (.f32, ⟨[1], [.flt (.num 4)]⟩)) ∧
    (resultTypeOf [.array .u8, .int 1] = some "int64" ∧
      scalarOp noPow false .add .u8 (stored .u8 [1] [.int 3]) (.int 1) = .ok (.u8, ⟨[1], [.int 4]⟩)) := by
  decide +kernel

/-- C114.  The function `add` treats a float as an array of float64: there `result_type` names the dtype of the sum. -/
theorem C114_function (pw : Powf) (neg : Bool) {op : ArithOp} (hop : op ≠ .div) {d : DType} (hd : d.Real) {h : Held Elem} {x : Flt ℚ}
    {r : DType} {q : Arr Elem} (hq : ufuncScalar pw neg op d h (.float x) = .ok (r, q)) :
    resultTypeOf [.array d, .float x] = some (DType.name r) :=
  C114_arrays false pw neg hop hd (b := .f64) trivial hq

example : ufuncScalar noPow false .add .f32 (stored .f32 [1] [.flt (.num 3)]) (.float (.num 1)) = .ok (.f64, ⟨[1], [.flt (.num 4)]⟩) := by
  decide +kernel

/-! ### Integers beyond 64 bits -/

/-- C114.  An integer beyond 64 bits that is not beyond the float64s counts as a float64. -/
theorem C114_large {n : Int} (h : n < -(2 : Int) ^ 63 ∨ 2 ^ 63 ≤ n) (hn : |(n : ℚ)| ≤ topOf 53 971) :
    resultTypeOf [.int n] = some "float64" := by
  obtain ⟨r, hr⟩ := roundBin_num (p := 53) (lo := -1074) (hi := 971) (by norm_num) hn
  have e : operandType (.int n) = some .f64 := by
    unfold operandType pyF64
    dsimp only
    rw [if_neg (by omega), hr]
  unfold resultTypeOf
  rw [if_neg (by simp)]
  unfold resultLoop
  rw [e]
  rfl

example : resultTypeOf [.int (10 ^ 30)] = some "float64" := C114_large (Or.inr (by norm_num)) (by decide +kernel)

/-- C114 fails for such an integer if a 64-bit dtype holds it: with a uint64 array it gives float64, which cannot store either. -/
theorem C114_large_counterexample : resultTypeOf [.array .u64, .int (2 ^ 63 + 1)] = some "float64" ∧
    (∃ lo hi, DType.intRange .u64 = some (lo, hi) ∧ lo ≤ 2 ^ 63 + 1 ∧ (2 : Int) ^ 63 + 1 ≤ hi) ∧
    roundBin 53 (-1074) 971 (2 ^ 63 + 1) = .num (2 ^ 63) := by
  refine ⟨by decide +kernel, ⟨_, _, rfl, by decide, by decide⟩, by decide +kernel⟩

end Props
