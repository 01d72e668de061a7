import Verif.Lemmas.DTypeInfo
import Verif.Props.Cast
/-!
# C87: questions about dtypes
-/

namespace Props
open Rumpy Spec

/-! ### Names -/

/-- C87.  A name means the same dtype in these functions as everywhere else; names are brought to one form once and for all. -/
theorem C87_names (s : String) :
    dtypeFromString s = parseDType s ∧ normalizeDtype (normalizeDtype s) = normalizeDtype s ∧
    (∀ d : DType, parseDType s = some d → d.Numeric → normalizeDtype s = DType.name d) := by
  refine ⟨parseDType_normalize s, normalizeDtype_idem s, fun d h hn => ?_⟩
  have key : ∀ p ∈ dtypeNames, p.2.Numeric → normalizeDtype p.1 = DType.name p.2 := by decide +kernel
  exact key (s, d) (parseDType_mem h hn) hn

example : dtypeFromString "<f4" = some .f32 ∧ normalizeDtype "<f4" = "float32" := by decide +kernel

/-- C87.  `promote_types` of two names names the promotion of their dtypes. -/
theorem C87_promote_types (s t : String) :
    (∀ a b, parseDType s = some a → parseDType t = some b → promoteTypes s t = some (DType.name (promote a b))) ∧
    (promoteTypes s t = none ↔ parseDType s = none ∨ parseDType t = none) := by
  unfold promoteTypes
  rw [dtypeFromString_eq, dtypeFromString_eq]
  refine ⟨fun a b h1 h2 => by rw [h1, h2]; rfl, ?_⟩
  cases parseDType s with
  | none => simp
  | some a => cases parseDType t with
    | none => simp
    | some b => simp

example : promoteTypes "i4" "float16" = some "float64" := by decide +kernel

/-! ### `iinfo` -/

/-- C87.  `iinfo` of an integer dtype, by any of its names: the range is what the dtype holds, and the bits are its width. -/
theorem C87_iinfo (s : String) (d : DType) (hs : parseDType s = some d) (hd : d ∈ signedTypes ++ unsignedTypes) :
    ∃ r, iinfo s = some r ∧ r.bits = 8 * DType.itemsize d ∧ ∀ n : Int, Holds d (n, 0) ↔ r.min ≤ n ∧ n ≤ r.max := by
  have hnum : d.Numeric := by
    revert hd; revert d; intro d _ hd
    cases d <;> first | trivial | (simp [signedTypes, unsignedTypes] at hd)
  have hname := (C87_names s).2.2 d hs hnum
  unfold iinfo
  rw [hname]
  have range : ∀ (lo hi n : Int), (IsInt lo hi (n : ℚ) ∧ (0 : ℚ) = 0) ↔ lo ≤ n ∧ n ≤ hi := by
    intro lo hi n
    constructor
    · rintro ⟨⟨k, h1, h2, h3⟩, -⟩
      have : n = k := by exact_mod_cast h3
      subst this
      exact ⟨h1, h2⟩
    · exact fun h => ⟨⟨n, h.1, h.2, rfl⟩, rfl⟩
  simp only [signedTypes, unsignedTypes, List.cons_append, List.nil_append, List.mem_cons, List.not_mem_nil, or_false] at hd
  rcases hd with rfl | rfl | rfl | rfl | rfl | rfl | rfl | rfl
  · exact ⟨⟨8, -2 ^ 7, 2 ^ 7 - 1⟩, by decide +kernel, rfl, fun n => range _ _ n⟩
  · exact ⟨⟨16, -2 ^ 15, 2 ^ 15 - 1⟩, by decide +kernel, rfl, fun n => range _ _ n⟩
  · exact ⟨⟨32, -2 ^ 31, 2 ^ 31 - 1⟩, by decide +kernel, rfl, fun n => range _ _ n⟩
  · exact ⟨⟨64, -2 ^ 63, 2 ^ 63 - 1⟩, by decide +kernel, rfl, fun n => range _ _ n⟩
  · exact ⟨⟨8, 0, 2 ^ 8 - 1⟩, by decide +kernel, rfl, fun n => range _ _ n⟩
  · exact ⟨⟨16, 0, 2 ^ 16 - 1⟩, by decide +kernel, rfl, fun n => range _ _ n⟩
  · exact ⟨⟨32, 0, 2 ^ 32 - 1⟩, by decide +kernel, rfl, fun n => range _ _ n⟩
  · exact ⟨⟨64, 0, 2 ^ 64 - 1⟩, by decide +kernel, rfl, fun n => range _ _ n⟩

example : iinfo "<i2" = some ⟨16, -32768, 32767⟩ := by decide +kernel

/-- C87 (partial).  `iinfo` refuses every name that is not that of an integer dtype or `bool`. -/
theorem C87_iinfo_refused_partial (s : String) (h : ∀ d, parseDType s = some d → d ∉ signedTypes ++ unsignedTypes ++ [.bool]) :
    iinfo s = none := by
  have key : ∀ p ∈ iinfoTable, ∃ d ∈ signedTypes ++ unsignedTypes ++ [.bool], parseDType p.1 = some d := by decide +kernel
  cases hr : iinfo s with
  | none => rfl
  | some r =>
    obtain ⟨d, hd, hp⟩ := key _ (lookup_mem hr)
    dsimp only at hp
    rw [parseDType_normalize] at hp
    exact absurd hd (h d hp)

example : iinfo "float32" = none ∧ iinfo "<U3" = none := by decide +kernel

/-- C87 fails: `iinfo` takes `bool` for an integer dtype. -/
theorem C87_iinfo_counterexample : iinfo "bool" = some ⟨8, 0, 1⟩ ∧ DType.bool ∉ signedTypes ++ unsignedTypes := by decide +kernel

/-! ### `finfo` -/

/-- C87 (partial).  `finfo` of `float32` and `float64`, by any of their names.  Missing: `float16`, the complex dtypes, and the
smallest number of `float32`. -/
theorem C87_finfo_partial (s : String) :
    (parseDType s = some .f32 → ∃ r eps max min tiny, finfo s = some r ∧ r.bits = 32 ∧
      r.eps = .num eps ∧ r.max = .num max ∧ r.min = .num min ∧ r.tiny = .num tiny ∧
      IsFinfo 24 (-149) 104 eps max min tiny r.machep r.negep r.minexp r.maxexp r.precision) ∧
    (parseDType s = some .f64 → ∃ r eps max min tiny sub, finfo s = some r ∧ r.bits = 64 ∧
      r.eps = .num eps ∧ r.max = .num max ∧ r.min = .num min ∧ r.tiny = .num tiny ∧ r.sub = .num sub ∧
      IsFinfo 53 (-1074) 971 eps max min tiny r.machep r.negep r.minexp r.maxexp r.precision ∧ IsSmallest 53 (-1074) 971 sub) := by
  constructor
  · intro h
    have hname := (C87_names s).2.2 _ h trivial
    refine ⟨finfo32, 2 ^ (-23 : Int), (2 ^ 24 - 1) * 2 ^ (104 : Int), -((2 ^ 24 - 1) * 2 ^ (104 : Int)), 2 ^ (-126 : Int), ?_, rfl, rfl, rfl, rfl, rfl, ?_⟩
    · unfold finfo; rw [hname]; rfl
    · have := isFinfo_format (p := 24) (lo := -149) (hi := 104) (by norm_num) (by norm_num) (by norm_num) (prec := 6)
        (by constructor <;> norm_num)
      convert this using 1 <;> norm_num [finfo32]
  · intro h
    have hname := (C87_names s).2.2 _ h trivial
    refine ⟨finfo64, 2 ^ (-52 : Int), (2 ^ 53 - 1) * 2 ^ (971 : Int), -((2 ^ 53 - 1) * 2 ^ (971 : Int)), 2 ^ (-1022 : Int), 2 ^ (-1074 : Int),
      ?_, rfl, rfl, rfl, rfl, rfl, ?_, ?_, isSmallest_format (by norm_num) (by norm_num)⟩
    · unfold finfo; rw [hname]; rfl
    · decide +kernel
    · have := isFinfo_format (p := 53) (lo := -1074) (hi := 971) (by norm_num) (by norm_num) (by norm_num) (prec := 15)
        (by constructor <;> norm_num)
      convert this using 1 <;> norm_num [finfo64]

example : parseDType "f8" = some .f64 ∧ parseDType "<f4" = some .f32 := by decide +kernel

/-- C87.  The resolution is ten to the power of minus the number of digits, rounded. -/
theorem C87_finfo_resolution (s : String) (r : FInfo) (h : finfo s = some r) :
    IsRounding 53 (-1074) 971 (.num (1 / 10 ^ r.precision)) r.resolution := by
  unfold finfo at h
  split at h
  all_goals first | (cases h; exact toFormat_rounding (by norm_num) (by norm_num) (.num _)) | cases h

example : (finfo "float16").isSome = true := by decide +kernel

/-- C87.  `finfo` refuses every name that is not that of a float dtype. -/
theorem C87_finfo_refused (s : String) : (finfo s).isSome = true ↔ ∃ d ∈ floatTypes, parseDType s = some d := by
  constructor
  · intro h
    unfold finfo at h
    rw [← parseDType_normalize]
    split at h
    · next e => rw [e]; decide +kernel
    · next e => rw [e]; decide +kernel
    · next e => rw [e]; decide +kernel
    · cases h
  · rintro ⟨d, hd, hp⟩
    have hnum : d.Numeric := by
      cases d <;> first | trivial | (simp [floatTypes] at hd)
    have hname := (C87_names s).2.2 d hp hnum
    unfold finfo
    rw [hname]
    simp only [floatTypes, List.mem_cons, List.not_mem_nil, or_false] at hd
    rcases hd with rfl | rfl | rfl <;> rfl

/-- C87 fails for `float16`: `eps`, `tiny` and the smallest number are decimal roundings; 1 plus `eps` is not even a `float16`. -/
theorem C87_finfo16_counterexample :
    (∃ x, finfo16.eps = .num x ∧ x ≠ 2 ^ finfo16.machep ∧ ¬ IsFloat 11 (-24) 5 (1 + x)) ∧
    (∃ x, finfo16.tiny = .num x ∧ x ≠ 2 ^ finfo16.minexp) ∧
    (∃ x, finfo16.sub = .num x ∧ ¬ IsSmallest 11 (-24) 5 x) := by
  have look : ∀ y : Flt ℚ, (∃ x, y = .num x) ∨ y = .nan ∨ y = .posInf ∨ y = .negInf := by
    intro y; cases y <;> simp
  refine ⟨?_, ?_, ?_⟩
  · rcases look finfo16.eps with ⟨x, hx⟩ | h | h | h
    · have h1 : literal (977 / 10 ^ 6) = .num x := hx
      have hlt : ∀ y, literal (977 / 10 ^ 6) = .num y → (2 : ℚ) ^ (-10 : Int) < y ∧ y < 2 ^ (-9 : Int) := by
        intro y hy
        have e : literal (977 / 10 ^ 6) = .num (2252808620001779 / 2 ^ 61) := by decide +kernel
        rw [e] at hy
        cases hy
        constructor <;> norm_num
      obtain ⟨ha, hb⟩ := hlt x h1
      refine ⟨x, hx, fun e => ?_, fun hf => ?_⟩
      · have : x = 2 ^ (-10 : Int) := e
        rw [this] at ha; exact lt_irrefl _ ha
      · obtain ⟨m, e, hm, he1, he2, hm2⟩ := hf
        by_cases hee : (-10 : Int) ≤ e
        · obtain ⟨n, hn⟩ := zpow_multiple m hee
          rw [hn] at hm2
          have e1 : (2 : ℚ) ^ (-10 : Int) = 1 / 1024 := by norm_num
          have e2 : (2 : ℚ) ^ (-9 : Int) = 1 / 512 := by norm_num
          rw [e1] at ha hm2
          rw [e2] at hb
          have h3 : (1025 : ℚ) < n := by linarith
          have h4 : (n : ℚ) < 1026 := by linarith
          have h5 : (1025 : Int) < n := by exact_mod_cast h3
          have h6 : n < (1026 : Int) := by exact_mod_cast h4
          omega
        · have h7 : (m : ℚ) * 2 ^ e < 1 := by
            have h8 : (m : ℚ) < 2 ^ 11 := by exact_mod_cast (abs_lt.mp hm).2
            have h9 : (2 : ℚ) ^ e ≤ 2 ^ (-11 : Int) := two_zpow_le (by omega)
            have h10 := two_zpow_pos e
            have e3 : (2 : ℚ) ^ (-11 : Int) = 1 / 2048 := by norm_num
            rw [e3] at h9
            by_cases hm0 : (m : ℚ) ≤ 0
            · have := mul_nonpos_of_nonpos_of_nonneg hm0 h10.le
              linarith
            · calc (m : ℚ) * 2 ^ e ≤ m * (1 / 2048) := mul_le_mul_of_nonneg_left h9 (by linarith)
                _ < 1 := by linarith
          have := two_zpow_pos (-10)
          linarith
    all_goals exact absurd h (by decide +kernel)
  · rcases look finfo16.tiny with ⟨x, hx⟩ | h | h | h
    · refine ⟨x, hx, fun e => ?_⟩
      rw [e] at hx
      exact absurd hx (by decide +kernel)
    all_goals exact absurd h (by decide +kernel)
  · rcases look finfo16.sub with ⟨x, hx⟩ | h | h | h
    · refine ⟨x, hx, fun hs => ?_⟩
      have h1 := isSmallest_format (p := 11) (lo := -24) (hi := 5) (by norm_num) (by norm_num)
      have h2 : x = 2 ^ (-24 : Int) := le_antisymm (hs.2.2 _ h1.2.1 h1.1) (h1.2.2 _ hs.2.1 hs.1)
      rw [h2] at hx
      exact absurd hx (by decide +kernel)
    all_goals exact absurd h (by decide +kernel)

/-- C87 fails for `float32`: the smallest number is given as `1.4e-45`, which is not `2^-149`. -/
theorem C87_finfo32_counterexample : ∃ x, finfo32.sub = .num x ∧ ¬ IsSmallest 24 (-149) 104 x := by
  have look : ∀ y : Flt ℚ, (∃ x, y = .num x) ∨ y = .nan ∨ y = .posInf ∨ y = .negInf := by
    intro y; cases y <;> simp
  rcases look finfo32.sub with ⟨x, hx⟩ | h | h | h
  · refine ⟨x, hx, fun hs => ?_⟩
    have h1 := isSmallest_format (p := 24) (lo := -149) (hi := 104) (by norm_num) (by norm_num)
    have h2 : x = 2 ^ (-149 : Int) := le_antisymm (hs.2.2 _ h1.2.1 h1.1) (h1.2.2 _ hs.2.1 hs.1)
    rw [h2] at hx
    exact absurd hx (by decide +kernel)
  all_goals exact absurd h (by decide +kernel)

/-! ### `issubdtype` and `isdtype` -/

/-- C87 (partial).  `issubdtype` for the types of NumPy's hierarchy other than `integer` and `inexact`, and for dtype objects. -/
theorem C87_issubdtype_partial (s : String) (d : DType) (hs : parseDType s = some d) :
    (∀ c : Category, d.Numeric → c ≠ .integer → c ≠ .inexact → issubdtype s (.named c.name) = some (decide (d ∈ c.members))) ∧
    issubdtype s (.named "generic") = some true ∧
    (∀ t e, parseDType t = some e → issubdtype s (.dtype t) = some (decide (d = e))) := by
  unfold issubdtype
  simp only [dtypeFromString_eq, hs, Option.bind_eq_bind, Option.bind_some]
  refine ⟨fun c hn h1 h2 => ?_, rfl, fun t e h => by rw [h]; rfl⟩
  cases d <;> first | exact hn.elim | (cases c <;> first | exact absurd rfl h1 | exact absurd rfl h2 | decide +kernel)

example : parseDType "i4" = some .i32 ∧ issubdtype "i4" (.named "signedinteger") = some true ∧
    issubdtype "i4" (.named "floating") = some false := by decide +kernel

/-- C87 fails: `uint8` is said not to be an `integer`, `float64` not to be `inexact`, and a dtype named by a string is never
below itself. -/
theorem C87_issubdtype_counterexample :
    (issubdtype "uint8" (.named Category.integer.name) = some false ∧ DType.u8 ∈ Category.integer.members) ∧
    (issubdtype "float64" (.named Category.inexact.name) = some false ∧ DType.f64 ∈ Category.inexact.members) ∧
    issubdtype "float64" (.named "float64") = some false ∧ issubdtype "float64" (.dtype "float64") = some true := by
  decide +kernel

/-- A kind of the array API and what it asks: a kind by name, or one dtype. -/
def KindHolds (d : DType) : KindArg → Prop
  | .named k => ∃ p ∈ apiKinds, p.1 = k ∧ d ∈ p.2
  | .dtype t => parseDType t = some d

/-- C87 (partial).  `isdtype` is true when one of the kinds holds.  Missing: `bool` when `integral` is asked for. -/
theorem C87_isdtype_partial (s : String) (d : DType) (hs : parseDType s = some d) (kinds : List KindArg)
    (h : d ≠ .bool ∨ .named "integral" ∉ kinds) :
    ∃ b, isdtype s kinds = some b ∧ (b = true ↔ ∃ k ∈ kinds, KindHolds d k) := by
  have hany : ∀ ks : List KindArg, anyKind d ks = true ↔ ∃ k ∈ ks, checkKindArg d k = true := by
    intro ks
    induction ks with
    | nil => simp [anyKind]
    | cons k ks ih =>
      unfold anyKind
      by_cases hk : checkKindArg d k = true
      · rw [if_pos hk]; simp [hk]
      · rw [if_neg hk, ih]; simp [hk]
  have one : ∀ k : KindArg, d ≠ .bool ∨ .named "integral" ≠ k → (checkKindArg d k = true ↔ KindHolds d k) := by
    intro k hk
    cases k with
    | dtype t =>
      show (match dtypeFromString (normalizeDtype t) with | some e => decide (d = e) | none => false) = true ↔ parseDType t = some d
      rw [dtypeFromString_eq]
      cases parseDType t with
      | none => simp
      | some e => simp [eq_comm]
    | named k =>
      show checkKind d k = true ↔ ∃ p ∈ apiKinds, p.1 = k ∧ d ∈ p.2
      unfold checkKind
      split
      · cases d <;> simp [apiKinds, signedTypes, unsignedTypes, floatTypes, complexTypes]
      · cases d <;> simp [apiKinds, signedTypes, unsignedTypes, floatTypes, complexTypes, DType.isSigned]
      · cases d <;> simp [apiKinds, signedTypes, unsignedTypes, floatTypes, complexTypes, DType.isUnsigned]
      · have : d ≠ .bool := hk.resolve_right (fun h => h rfl)
        cases d <;> simp [apiKinds, signedTypes, unsignedTypes, floatTypes, complexTypes, DType.isUnsigned, DType.isSigned] at this ⊢
      · cases d <;> simp [apiKinds, signedTypes, unsignedTypes, floatTypes, complexTypes, DType.isFloat]
      · cases d <;> simp [apiKinds, signedTypes, unsignedTypes, floatTypes, complexTypes, DType.isComplex]
      · cases d <;> simp [apiKinds, signedTypes, unsignedTypes, floatTypes, complexTypes, isNumber, DType.isUnsigned, DType.isSigned,
          DType.isFloat, DType.isComplex]
      · next h1 h2 h3 h4 h5 h6 h7 =>
        simp only [Bool.false_eq_true, false_iff]
        rintro ⟨p, hp, rfl, -⟩
        simp only [apiKinds, List.mem_cons, List.not_mem_nil, or_false] at hp
        rcases hp with rfl | rfl | rfl | rfl | rfl | rfl | rfl
        · exact h1 rfl
        · exact h2 rfl
        · exact h3 rfl
        · exact h4 rfl
        · exact h5 rfl
        · exact h6 rfl
        · exact h7 rfl
  refine ⟨anyKind d kinds, ?_, ?_⟩
  · unfold isdtype
    rw [dtypeFromString_eq, hs]
    rfl
  · rw [hany]
    constructor
    · rintro ⟨k, hk, hc⟩
      exact ⟨k, hk, (one k (h.imp id fun h e => h (e ▸ hk))).mp hc⟩
    · rintro ⟨k, hk, hc⟩
      exact ⟨k, hk, (one k (h.imp id fun h e => h (e ▸ hk))).mpr hc⟩

example : parseDType "u2" = some .u16 ∧ isdtype "u2" [.named "bool", .dtype "uint16"] = some true ∧
    isdtype "u2" [.named "real floating"] = some false := by decide +kernel

/-- C87 fails: `bool` is said to be `integral`. -/
theorem C87_isdtype_counterexample : isdtype "bool" [.named "integral"] = some true ∧ ¬ KindHolds .bool (.named "integral") := by
  refine ⟨by decide +kernel, ?_⟩
  show ¬ ∃ p ∈ apiKinds, p.1 = "integral" ∧ DType.bool ∈ p.2
  decide +kernel

/-! ### `common_type` -/

/-- C87 (partial).  `common_type` of integer, float and complex arrays.  Missing: complex arrays together with reals of a higher
precision but no `complex128`, arrays that are all `float16`, and the refusal of other dtypes. -/
theorem C87_common_type_partial (ds : List DType) (hne : ds ≠ []) (hk : ∀ d ∈ ds, precisionOf d ≠ none)
    (hc : (∃ d ∈ ds, d ∈ complexTypes) → (∃ d ∈ ds, precisionOf d = some 2) → .c128 ∈ ds)
    (hh : ∃ d ∈ ds, d ≠ .f16) :
    ∃ t, commonType ds = some t ∧ IsCommonType ds t := by
  obtain ⟨h1, h2⟩ := commonFold ds (false, 0)
  unfold commonType
  rw [if_neg hne]
  dsimp only
  generalize hr : ds.foldl commonStep (false, 0) = r at h1 h2
  simp only [Bool.false_eq_true, false_or] at h1
  have size16 : ∀ d : DType, 16 ≤ floatSize d ↔ d = .c128 := by intro d; cases d <;> simp [floatSize]
  have prec : ∀ d ∈ ds, ∃ q, precisionOf d = some q ∧ q ≤ 2 := by
    intro d hd
    have := hk d hd
    cases d <;> simp [precisionOf] at this ⊢
  have hprec2 : ∀ d ∈ ds, ¬ 8 ≤ floatSize d → ∃ q, precisionOf d = some q ∧ q ≤ 1 := by
    intro d hd h
    cases d <;> simp [floatSize, precisionOf] at h ⊢
  refine ⟨_, rfl, ?_⟩
  by_cases hcx : ∃ d ∈ ds, d ∈ complexTypes
  · rw [if_pos (h1.mpr hcx)]
    by_cases h16 : r.2 ≥ 16
    · rw [if_pos h16]
      obtain ⟨d, hd, hs⟩ := ((h2 16).mp h16).resolve_left (by decide)
      rw [size16] at hs
      subst hs
      exact ⟨by decide, ⟨fun _ => hcx, fun _ => by decide⟩, 2, rfl, ⟨_, hd, rfl⟩, prec⟩
    · rw [if_neg h16]
      have hno : .c128 ∉ ds := fun h => h16 ((h2 16).mpr (Or.inr ⟨_, h, by decide⟩))
      have hno2 : ∀ d ∈ ds, precisionOf d ≠ some 2 := fun d hd h => hno (hc hcx ⟨d, hd, h⟩)
      refine ⟨by decide, ⟨fun _ => hcx, fun _ => by decide⟩, 1, rfl, ?_, fun d hd => ?_⟩
      · obtain ⟨d, hd, hm⟩ := hcx
        refine ⟨d, hd, ?_⟩
        simp only [complexTypes, List.mem_cons, List.not_mem_nil, or_false] at hm
        rcases hm with rfl | rfl
        · rfl
        · exact absurd hd hno
      · obtain ⟨q, hq, hle⟩ := prec d hd
        refine ⟨q, hq, ?_⟩
        have : q ≠ 2 := fun e => hno2 d hd (e ▸ hq)
        omega
  · rw [if_neg (fun h => hcx (h1.mp h))]
    by_cases h8 : r.2 ≥ 8
    · rw [if_pos h8]
      obtain ⟨d, hd, hs⟩ := ((h2 8).mp h8).resolve_left (by decide)
      refine ⟨by decide, ⟨fun h => absurd h (by decide), fun h => absurd h hcx⟩, 2, rfl, ⟨d, hd, ?_⟩, prec⟩
      have hk' := hk d hd
      have hcd : d ∉ complexTypes := fun h => hcx ⟨d, hd, h⟩
      cases d <;> simp [floatSize, precisionOf, complexTypes] at hs hk' hcd ⊢
    · rw [if_neg h8]
      have hall : ∀ d ∈ ds, ¬ 8 ≤ floatSize d := fun d hd h => h8 ((h2 8).mpr (Or.inr ⟨d, hd, h⟩))
      obtain ⟨d, hd, hnf⟩ := hh
      have hd32 : d = .f32 := by
        have := hall d hd
        cases d <;> simp [floatSize] at this hnf ⊢
      subst hd32
      have h4 : r.2 ≥ 4 := (h2 4).mpr (Or.inr ⟨_, hd, by decide⟩)
      rw [if_pos h4]
      exact ⟨by decide, ⟨fun h => absurd h (by decide), fun h => absurd h hcx⟩, 1, rfl, ⟨_, hd, rfl⟩, fun d hd => hprec2 d hd (hall d hd)⟩

example : commonType [.f32, .f16] = some .f32 ∧ commonType [.f32, .i8] = some .f64 ∧ commonType [.f16, .c64] = some .c64 ∧
    commonType [.f64, .c64, .c128] = some .c128 := by decide +kernel

/-- C87 fails: `complex64` with `float64` gives `complex64`, `float16` alone gives `float64`, and `bool` is not refused. -/
theorem C87_common_type_counterexample :
    (commonType [.f64, .c64] = some .c64 ∧ ¬ IsCommonType [.f64, .c64] .c64) ∧
    (commonType [.f16] = some .f64 ∧ ¬ IsCommonType [.f16] .f64) ∧
    (commonType [.bool] = some .f64 ∧ ∀ t, ¬ IsCommonType [.bool] t) := by
  refine ⟨⟨by decide +kernel, ?_⟩, ⟨by decide +kernel, ?_⟩, by decide +kernel, ?_⟩
  · rintro ⟨-, -, p, hp, -, h⟩
    obtain ⟨q, hq, hle⟩ := h .f64 (by decide)
    cases hp; cases hq
    exact absurd hle (by decide)
  · rintro ⟨-, -, p, hp, ⟨d, hd, h⟩, -⟩
    rw [List.mem_singleton] at hd
    subst hd
    cases hp; cases h
  · rintro t ⟨-, -, p, -, ⟨d, hd, h⟩, -⟩
    rw [List.mem_singleton] at hd
    subst hd
    cases h

end Props
