import Verif.Lemmas.DType
import Verif.Lemmas.Text
/-!
# C28, C58: dtype promotion and casting rules
-/

namespace Props
open Spec Rumpy

/-! ### C28: promotion -/

/-- NumPy's reading of "can be stored": every number of `a` is a number of `k`, or `a` is a 64-bit
integer dtype and `k` a 64-bit float (or complex) dtype. -/
def Accepts (a k : DType) : Prop := Fits a k ∨ (a = .i64 ∨ a = .u64) ∧ (k = .f64 ∨ k = .c128)

/-- The same as a table. -/
def acceptsTable (a k : DType) : Bool :=
  fitsTable a k || ((a == .i64 || a == .u64) && (k == .f64 || k == .c128))

theorem accepts_iff {a k : DType} (ha : a.Numeric) (hk : k.Numeric) : Accepts a k ↔ acceptsTable a k = true := by
  unfold Accepts acceptsTable
  rw [fits_iff ha hk]
  simp

theorem numeric_of_mem {a : DType} (h : a ∈ numericOrder) : a.Numeric := by
  simp only [numericOrder, List.mem_cons, List.not_mem_nil, or_false] at h
  rcases h with h | h | h | h | h | h | h | h | h | h | h | h | h | h <;> subst h <;> trivial

/-- C28: the dtype of an operation on equal dtypes is that dtype. -/
theorem C28_idem (a : DType) : promote a a = a := by simp [promote]

/-- C28: for numeric dtypes the result of a mixed operation is the first dtype, in the order bool,
integers, floats, complex numbers and by size within them, that can store both operands. -/
theorem C28_promote {a b : DType} (ha : a.Numeric) (hb : b.Numeric) :
    ∃ pre post, numericOrder = pre ++ promote a b :: post ∧ Accepts a (promote a b) ∧ Accepts b (promote a b) ∧
      ∀ k ∈ pre, ¬ (Accepts a k ∧ Accepts b k) := by
  have key : ∀ a ∈ numericOrder, ∀ b ∈ numericOrder,
      promote a b ∈ numericOrder ∧ acceptsTable a (promote a b) = true ∧ acceptsTable b (promote a b) = true ∧
      ∀ k ∈ numericOrder.takeWhile (· ≠ promote a b), (acceptsTable a k && acceptsTable b k) = false := by
    decide +kernel
  obtain ⟨h1, h2, h3, h4⟩ := key a (mem_numericOrder ha) b (mem_numericOrder hb)
  have hn := numeric_of_mem h1
  refine ⟨numericOrder.takeWhile (· ≠ promote a b), (numericOrder.dropWhile (· ≠ promote a b)).tail, ?_,
    (accepts_iff ha hn).2 h2, (accepts_iff hb hn).2 h3, ?_⟩
  · have hd : numericOrder.dropWhile (· ≠ promote a b) =
        promote a b :: (numericOrder.dropWhile (· ≠ promote a b)).tail := by
      cases hq : numericOrder.dropWhile (· ≠ promote a b) with
      | nil =>
        have h5 := List.takeWhile_append_dropWhile (p := (· ≠ promote a b)) (l := numericOrder)
        rw [hq, List.append_nil] at h5
        rw [← h5] at h1
        have := List.all_eq_true.1 (List.all_takeWhile (p := (· ≠ promote a b)) (l := numericOrder)) _ h1
        simp at this
      | cons x xs =>
        have := List.head?_dropWhile_not (· ≠ promote a b) numericOrder
        rw [hq] at this
        simp only [List.head?_cons] at this
        simp only [ne_eq, decide_not, Bool.not_eq_false', decide_eq_true_eq] at this
        rw [this]; rfl
    conv_lhs => rw [← List.takeWhile_append_dropWhile (p := (· ≠ promote a b)) (l := numericOrder), hd]
  · intro k hk
    have hkm : k ∈ numericOrder := (List.takeWhile_sublist _).subset hk
    have := h4 k hk
    rw [Bool.and_eq_false_iff] at this
    rintro ⟨ka, kb⟩
    rw [accepts_iff ha (numeric_of_mem hkm)] at ka
    rw [accepts_iff hb (numeric_of_mem hkm)] at kb
    rcases this with h | h
    · rw [h] at ka; cases ka
    · rw [h] at kb; cases kb

example : promote .i8 .u8 = .i16 := by decide
example : promote .u32 .f32 = .f64 := by decide
example : promote .c64 .i16 = .c64 := by decide
example : DType.Numeric .u32 ∧ ¬ DType.Numeric (.datetime .s) := by decide

/-- C28 (partial): every number of the first operand's dtype can be stored in the result's dtype,
except that 64-bit integers become 64-bit floats. -/
theorem C28_holds_partial {a b : DType} (ha : a.Numeric) (hb : b.Numeric)
    (h64 : a ≠ .i64 ∧ a ≠ .u64 ∨ DType.isFloat (promote a b) = false ∧ DType.isComplex (promote a b) = false) :
    Fits a (promote a b) := by
  obtain ⟨_, _, _, h, _, _⟩ := C28_promote ha hb
  rcases h with h | ⟨h1, h2⟩
  · exact h
  · exfalso
    rcases h64 with h | h
    · rcases h1 with h1 | h1
      · exact h.1 h1
      · exact h.2 h1
    · rcases h2 with h2 | h2 <;> rw [h2] at h
      · exact absurd h.1 (by decide)
      · exact absurd h.2 (by decide)

/-- C28 fails for 64-bit integers (as in NumPy): `2^53 + 1` is an int64 but not a float64, the dtype
of int64 with uint64. -/
theorem C28_holds_counterexample : promote .i64 .u64 = .f64 ∧ ¬ Fits .i64 .f64 := by
  refine ⟨by decide, ?_⟩
  rw [fits_iff (by trivial) (by trivial)]
  decide +kernel

/-- C28: the operand order does not matter for numeric dtypes. -/
theorem C28_symm_partial {a b : DType} (ha : a.Numeric) (hb : b.Numeric) : promote a b = promote b a := by
  have key : ∀ a ∈ numericOrder, ∀ b ∈ numericOrder, promote a b = promote b a := by decide +kernel
  exact key a (mem_numericOrder ha) b (mem_numericOrder hb)

/-- Dtypes that hold text. -/
def IsText : DType → Prop
  | .str _ | .bytes _ => True
  | _ => False

/-- Durations. -/
def IsTimedelta : DType → Prop
  | .timedelta _ => True
  | _ => False

/-- Dates. -/
def IsDatetime : DType → Prop
  | .datetime _ => True
  | _ => False

/-- C28: exactly when the operand order matters: the dtypes differ, neither is complex, and one is a
date, or both are text, or both are durations, or one is a duration and the other int8. -/
theorem C28_asymmetric_iff (a b : DType) :
    promote a b ≠ promote b a ↔ a ≠ b ∧ a ≠ .c64 ∧ a ≠ .c128 ∧ b ≠ .c64 ∧ b ≠ .c128 ∧
      (IsDatetime a ∨ IsDatetime b ∨ IsText a ∧ IsText b ∨ IsTimedelta a ∧ IsTimedelta b ∨
        IsTimedelta a ∧ b = .i8 ∨ a = .i8 ∧ IsTimedelta b) := by
  by_cases hab : a = b
  · subst hab; simp
  · have hba : ¬ b = a := fun h => hab h.symm
    cases a <;> cases b <;>
      simp_all [promote, promoteInts, DType.isComplex, DType.isDatetime, DType.isFloat, DType.isLargeInt, DType.isMediumInt,
        DType.isSigned, DType.isUnsigned, DType.priority, DType.itemsize, IsDatetime, IsText, IsTimedelta]

/-- C28 fails outside the numbers: a date with an integer takes the dtype of whichever comes first;
two strings take the length of the first, so the second is cut; a duration with an int64 is an
int64, so the unit is lost. -/
theorem C28_counterexample :
    promote (.datetime .s) .i64 = .datetime .s ∧ promote .i64 (.datetime .s) = .i64 ∧
    promote (.str 3) (.str 5) = .str 3 ∧ promote (.str 5) (.str 3) = .str 5 ∧
    promote (.timedelta .s) .i64 = .i64 := by decide

/-- C28 fails for three operands: `result_type` depends on their order. -/
theorem C28_result_type_counterexample :
    resultType [.i8, .u8, .f16] = some .f32 ∧ resultType [.u8, .f16, .i8] = some .f16 := by decide

theorem promote_numeric {a b : DType} (ha : a.Numeric) (hb : b.Numeric) : (promote a b).Numeric := by
  obtain ⟨pre, post, h, _⟩ := C28_promote ha hb
  exact numeric_of_mem (by rw [h]; simp)

/-- C28: `result_type` of any number of numeric dtypes can store every number of each of them,
64-bit integers aside. -/
theorem C28_result_type_partial (ds : List DType) (r : DType) (hr : resultType ds = some r)
    (hn : ∀ d ∈ ds, d.Numeric ∧ d ≠ .i64 ∧ d ≠ .u64) : ∀ d ∈ ds, Fits d r := by
  have step : ∀ d ∈ numericOrder, ∀ a ∈ numericOrder, ∀ b ∈ numericOrder, d ≠ .i64 → d ≠ .u64 →
      (fitsTable d a = true ∨ fitsTable d b = true) → fitsTable d (promote a b) = true := by
    decide +kernel
  have key : ∀ (ds : List DType) (a : DType), a.Numeric → (∀ d ∈ ds, d.Numeric) → ∀ d, d.Numeric → d ≠ .i64 → d ≠ .u64 →
      (Fits d a ∨ ∃ b ∈ ds, Fits d b) → Fits d (ds.foldl promote a) := by
    intro ds
    induction ds with
    | nil =>
      intro a _ _ d _ _ _ h
      rcases h with h | ⟨b, hb, _⟩
      · exact h
      · simp at hb
    | cons b ds ih =>
      intro a ha hds d hd h1 h2 h
      have hb := hds b (by simp)
      rw [List.foldl_cons]
      apply ih _ (promote_numeric ha hb) (fun d hd => hds d (by simp [hd])) d hd h1 h2
      rcases h with h | ⟨c, hc, h⟩
      · left
        rw [fits_iff hd ha] at h
        rw [fits_iff hd (promote_numeric ha hb)]
        exact step d (mem_numericOrder hd) a (mem_numericOrder ha) b (mem_numericOrder hb) h1 h2 (Or.inl h)
      · rcases List.mem_cons.1 hc with rfl | hc
        · left
          rw [fits_iff hd hb] at h
          rw [fits_iff hd (promote_numeric ha hb)]
          exact step d (mem_numericOrder hd) a (mem_numericOrder ha) c (mem_numericOrder hb) h1 h2 (Or.inr h)
        · exact Or.inr ⟨c, hc, h⟩
  intro d hd
  cases ds with
  | nil => simp at hd
  | cons a ds =>
    simp only [resultType, Option.some.injEq] at hr
    subst hr
    apply key ds a (hn a (by simp)).1 (fun x hx => (hn x (by simp [hx])).1) d (hn d hd).1 (hn d hd).2.1 (hn d hd).2.2
    rcases List.mem_cons.1 hd with rfl | hd
    · exact Or.inl fun z hz => hz
    · exact Or.inr ⟨d, hd, fun z hz => hz⟩

example : resultType [.i8, .u16, .f32] = some .f64 := by decide

/-! ### C58: casting rules -/

/-- C58 (partial): for numeric dtypes, a cast is called safe exactly when it loses no number — except
casts of integers to complex dtypes, which are always called safe. -/
theorem C58_safe_partial {a b : DType} (ha : a.Numeric) (hb : b.Numeric)
    (h : DType.isComplex b = false ∨ DType.intBits a = 0) : canCast a b .safe = true ↔ Fits a b := by
  have key : ∀ a ∈ numericOrder, ∀ b ∈ numericOrder, (DType.isComplex b = false ∨ DType.intBits a = 0) →
      canCast a b .safe = fitsTable a b := by decide +kernel
  rw [key a (mem_numericOrder ha) b (mem_numericOrder hb) h, fits_iff ha hb]

/-- C58: exactly which casts called safe lose numbers: 32- and 64-bit integers to complex64 and 64-bit
integers to complex128. -/
theorem C58_unsafe_iff {a b : DType} (ha : a.Numeric) (hb : b.Numeric) :
    (canCast a b .safe = true ∧ ¬ Fits a b) ↔
      DType.intBits a ≥ 32 ∧ b = .c64 ∨ DType.intBits a = 64 ∧ b = .c128 := by
  have key : ∀ a ∈ numericOrder, ∀ b ∈ numericOrder, ((canCast a b .safe = true ∧ fitsTable a b = false) ↔
      DType.intBits a ≥ 32 ∧ b = .c64 ∨ DType.intBits a = 64 ∧ b = .c128) := by decide +kernel
  rw [fits_iff ha hb, Bool.not_eq_true]
  exact key a (mem_numericOrder ha) b (mem_numericOrder hb)

/-- C58 fails for int64 to complex64: the cast is called safe, but `2^53 + 1` is lost. -/
theorem C58_safe_counterexample : canCast .i64 .c64 .safe = true ∧ ¬ Fits .i64 .c64 :=
  (C58_unsafe_iff (by trivial) (by trivial)).2 (by decide)

/-- C58: every numeric dtype except the 64-bit integers casts safely to whatever it is promoted
to. -/
theorem C58_safe_promote {a b : DType} (ha : a.Numeric) (hb : b.Numeric) (h1 : a ≠ .i64) (h2 : a ≠ .u64) :
    canCast a (promote a b) .safe = true := by
  have key : ∀ a ∈ numericOrder, ∀ b ∈ numericOrder, a ≠ .i64 → a ≠ .u64 → canCast a (promote a b) .safe = true := by
    decide +kernel
  exact key a (mem_numericOrder ha) b (mem_numericOrder hb) h1 h2

/-- C58: the rules get weaker in the order no, safe, same_kind, unsafe. -/
theorem C58_rules_ordered_partial (a b : DType) :
    (canCast a b .no = true → canCast a b .safe = true) ∧
    (canCast a b .safe = true → canCast a b .sameKind = true) ∧
    (canCast a b .sameKind = true → canCast a b .unsafeCast = true) := by
  refine ⟨?_, ?_, fun _ => rfl⟩
  · intro h
    have h : a = b := by simpa [canCast] using h
    subst h; simp [canCast, canCastSafe]
  · intro h
    have h : canCastSafe a b = true := h
    simp [canCast, canCastSameKind, h]

/-- C58 fails for `equiv`, which should be stricter than `safe`: float32 to int32 is called
equivalent because the sizes agree, though `1/2` is lost. -/
theorem C58_equiv_counterexample :
    canCast .f32 .i32 .equiv = true ∧ canCast .f32 .i32 .safe = false ∧ ¬ Fits .f32 .i32 := by
  refine ⟨by decide, by decide, ?_⟩
  rw [fits_iff (by trivial) (by trivial)]
  decide +kernel

/-! ### C59: names -/

/-- C59 (partial): the name and the type string of every dtype without a length are read back as
that dtype. -/
theorem C59_names_partial (a : DType) (h : ¬ IsText a) :
    parseDType (DType.name a) = some a ∧ parseDType (DType.typestr a) = some a := by
  cases a with
  | str n => exact absurd trivial h
  | bytes n => exact absurd trivial h
  | datetime u => cases u <;> decide +kernel
  | timedelta u => cases u <;> decide +kernel
  | _ => decide +kernel

/-- C59 (partial): a string dtype written with its length is read back with that length. -/
theorem C59_lengths_partial (n : Nat) (hn : n < 2 ^ 64) :
    parseDType (String.ofList ('<' :: 'U' :: showNat n)) = some (.str n) ∧
    parseDType (String.ofList ('|' :: 'S' :: showNat n)) = some (.bytes n) := by
  have key : ∀ p ∈ dtypeNames, (p.1.toList.take 2 ≠ ['<', 'U']) ∧ (p.1.toList.take 2 ≠ ['|', 'S']) := by decide +kernel
  have hl : ∀ (l : List (String × DType)) (s : String), (∀ p ∈ l, p.1 ≠ s) → l.lookup s = none := by
    intro l s h
    induction l with
    | nil => rfl
    | cons p l ih =>
      obtain ⟨a, b⟩ := p
      rw [List.lookup_cons]
      have : (s == a) = false := by
        rw [beq_eq_false_iff_ne]; exact fun e => h (a, b) (by simp) e.symm
      rw [this]
      exact ih fun p hp => h p (by simp [hp])
  have hp := parseUsize_digits (showNat_digits n) (parseDigits_showNat n) hn
  constructor
  · unfold parseDType
    rw [hl _ _ (fun p hp e => (key p hp).1 (by rw [e]; simp))]
    simp [hp]
  · unfold parseDType
    rw [hl _ _ (fun p hp e => (key p hp).2 (by rw [e]; simp))]
    simp [hp]

example : parseDType "<U12" = some (.str 12) := by decide +kernel
example : parseDType "|S7" = some (.bytes 7) := by decide +kernel
example : parseDType "U+5" = some (.str 5) := by decide +kernel

/-- C59 fails for strings: the length is in neither the name nor the type string. -/
theorem C59_counterexample :
    parseDType (DType.name (.str 5)) = some (.str 0) ∧ parseDType (DType.typestr (.str 5)) = some (.str 0) := by
  decide +kernel

/-- C59 fails for byte order: big-endian type strings of dates are taken as if little-endian. -/
theorem C59_byteorder_counterexample : parseDType ">M8[s]" = parseDType "<M8[s]" := by decide +kernel

end Props
