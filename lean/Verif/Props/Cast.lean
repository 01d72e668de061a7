import Verif.Lemmas.Cast
import Verif.Lemmas.DType
import Verif.Props.Elementwise
import Verif.Props.Datetime
/-!
# C70: conversion of arrays to another dtype
-/

namespace Props
open Spec Rumpy

/-! ### One element -/

theorem isRounding_self {p : Nat} {lo hi : Int} {u : Flt ℚ} (h : IsFlt p lo hi u) : IsRounding p lo hi u u := by
  cases u with
  | num q => exact ⟨h, fun t _ => by rw [sub_self, abs_zero]; exact abs_nonneg _⟩
  | nan => rfl
  | posInf => rfl
  | negInf => rfl

theorem roundBin_posInf {p : Nat} {lo hi : Int} (hlh : lo ≤ hi) {q : ℚ} (h : roundBin p lo hi q = .posInf) {t : ℚ}
    (ht : IsFloat p lo hi t) : t < q := by
  by_contra hc
  push Not at hc
  -- the largest number of the format
  have hM : t ≤ ((2 ^ p - 1 : Int) : ℚ) * 2 ^ hi := by
    obtain ⟨m, k, hm, hk1, hk2, rfl⟩ := ht
    have h1 : (m : ℚ) ≤ ((2 ^ p - 1 : Int) : ℚ) := by
      have := (abs_lt.1 hm).2
      exact_mod_cast (by omega : m ≤ 2 ^ p - 1)
    have h0 : (0 : ℚ) ≤ ((2 ^ p - 1 : Int) : ℚ) := by
      have : (0 : Int) < 2 ^ p := by positivity
      exact_mod_cast (by omega : (0 : Int) ≤ 2 ^ p - 1)
    calc (m : ℚ) * 2 ^ k ≤ ((2 ^ p - 1 : Int) : ℚ) * 2 ^ k := mul_le_mul_of_nonneg_right h1 (two_zpow_pos k).le
      _ ≤ _ := mul_le_mul_of_nonneg_left (two_zpow_le hk2) h0
  generalize hMd : ((2 ^ p - 1 : Int) : ℚ) * 2 ^ hi = M at hM
  have hM2 : M < 2 ^ (hi + p) := by
    rw [← hMd, zpow_add₀ (by norm_num), mul_comm ((2 : ℚ) ^ hi)]
    apply mul_lt_mul_of_pos_right _ (two_zpow_pos hi)
    push_cast
    rw [zpow_natCast]
    linarith
  unfold roundBin at h
  dsimp only at h
  generalize he : max lo (Int.log 2 |q| - p + 1) = e at h
  have hr : (2 : ℚ) ^ (hi + p) ≤ roundEven (q / 2 ^ e) * (2 : ℚ) ^ e := by
    split at h
    · assumption
    · split at h <;> cases h
  have hn := roundEven_nearest (q / 2 ^ e)
  have hpos := two_zpow_pos (hi + p)
  have hgrid : ∀ n : Int, (n : ℚ) * 2 ^ e < 2 ^ (hi + p) → q ≤ n * 2 ^ e → False := by
    intro n h1 h2
    have h3 := hn n
    have e1 : q / 2 ^ e ≤ n := (div_le_iff₀ (two_zpow_pos e)).2 h2
    have e2 : (n : ℚ) < roundEven (q / 2 ^ e) := by
      have := lt_of_lt_of_le h1 hr
      exact lt_of_mul_lt_mul_right this (two_zpow_pos e).le
    rw [abs_of_nonpos (by linarith), abs_of_nonpos (by linarith)] at h3
    linarith
  by_cases hq : q ≤ 0
  · exact hgrid 0 (by rw [Int.cast_zero, zero_mul]; exact hpos) (by simpa using hq)
  · push Not at hq
    have hlog : Int.log 2 |q| < hi + p := log_lt_of_lt hq.ne' (by rw [abs_of_pos hq]; linarith)
    obtain ⟨n, hn'⟩ := zpow_multiple (2 ^ p - 1) (e := e) (k := hi) (by omega)
    rw [hMd] at hn'
    exact hgrid n (by rw [← hn']; exact hM2) (by rw [← hn']; linarith)

theorem toFormat_rounding {p : Nat} {lo hi : Int} (hp : 0 < p) (hlh : lo ≤ hi) (u : Flt ℚ) :
    IsRounding p lo hi u (toFormat p lo hi u) := by
  cases u with
  | nan => rfl
  | posInf => rfl
  | negInf => rfl
  | num q =>
    show IsRounding p lo hi (.num q) (roundBin p lo hi q)
    have ht := roundBin_isFlt hp hlh q
    cases hr : roundBin p lo hi q with
    | nan =>
      unfold roundBin at hr
      dsimp only at hr
      split at hr
      · cases hr
      · split at hr <;> cases hr
    | num r =>
      rw [hr] at ht
      exact ⟨ht, fun t h => roundBin_nearest hp hr h⟩
    | posInf => exact fun t h => roundBin_posInf hlh hr h
    | negInf =>
      intro t h
      have h1 : roundBin p lo hi (-q) = .posInf := by rw [roundBin_neg, hr]; rfl
      have h2 : IsFloat p lo hi (-t) := by
        obtain ⟨m, k, hm, h1, h2, rfl⟩ := h
        exact ⟨-m, k, by rw [abs_neg]; exact hm, h1, h2, by push_cast; ring⟩
      have := roundBin_posInf hlh h1 h2
      linarith

theorem toFormat_isFlt {p : Nat} {lo hi : Int} (hp : 0 < p) (hlh : lo ≤ hi) (u : Flt ℚ) : IsFlt p lo hi (toFormat p lo hi u) := by
  cases u with
  | num q => exact roundBin_isFlt hp hlh q
  | nan => trivial
  | posInf => trivial
  | negInf => trivial

theorem fltToInt_range {lo hi : Int} (h0 : lo ≤ 0) (h1 : 0 ≤ hi) (u : Flt ℚ) : lo ≤ fltToInt lo hi u ∧ fltToInt lo hi u ≤ hi := by
  cases u <;> simp only [fltToInt] <;> omega

theorem fltToInt_trunc {lo hi : Int} {q : ℚ} {n : Int} (h : IsTrunc q n) (h0 : lo ≤ n) (h1 : n ≤ hi) :
    fltToInt lo hi (.num q) = n := by
  have := trunc_unique (trunc_spec q) h
  simp only [fltToInt]
  rw [this]
  omega

theorem isTrunc_int (n : Int) : IsTrunc (n : ℚ) n :=
  ⟨le_refl _, by rw [sub_self, abs_zero]; norm_num, mul_self_nonneg _⟩

theorem intRange_zero {b : DType} {lo hi : Int} (h : b.intRange = some (lo, hi)) : lo ≤ 0 ∧ 0 ≤ hi := by
  cases b <;> simp only [DType.intRange, Option.some.injEq, Prod.mk.injEq, reduceCtorEq] at h <;> omega

theorem number_of_parts {x : Elem} {q r : ℚ} (h : x.parts = some (.num q, .num r)) : x.number = some (q, r) := by
  cases x with
  | bool b => simp only [Elem.parts, Option.some.injEq, Prod.mk.injEq, Flt.num.injEq] at h; rw [← h.1, ← h.2]; rfl
  | int n => simp only [Elem.parts, Option.some.injEq, Prod.mk.injEq, Flt.num.injEq] at h; rw [← h.1, ← h.2]; rfl
  | flt y => simp only [Elem.parts, Option.some.injEq, Prod.mk.injEq, Flt.num.injEq] at h; rw [h.1, ← h.2]; rfl
  | cpx y z => simp only [Elem.parts, Option.some.injEq, Prod.mk.injEq] at h; rw [h.1, h.2]; rfl
  | text t => cases h

theorem parts_of_number {x : Elem} {z : ℚ × ℚ} (h : x.number = some z) : x.parts = some (.num z.1, .num z.2) := by
  cases x with
  | bool b => simp only [Elem.number, Option.some.injEq] at h; rw [← h]; rfl
  | int n => simp only [Elem.number, Option.some.injEq] at h; rw [← h]; rfl
  | flt y =>
    cases y with
    | num q => simp only [Elem.number, Option.some.injEq] at h; rw [← h]; rfl
    | nan => cases h
    | posInf => cases h
    | negInf => cases h
  | cpx y z =>
    cases y with
    | num q =>
      cases z with
      | num q => simp only [Elem.number, Option.some.injEq] at h; rw [← h]; rfl
      | nan => cases h
      | posInf => cases h
      | negInf => cases h
    | nan => cases h
    | posInf => cases h
    | negInf => cases h
  | text t => cases h

theorem converts_int {b : DType} {lo hi : Int} (hr : b.intRange = some (lo, hi))
    (hH : ∀ z, Holds b z → IsInt lo hi z.1 ∧ z.2 = 0) (hf : b.format = none) (hb : b ≠ .bool)
    (hT : ∀ n, lo ≤ n → n ≤ hi → Elem.OfType b (.int n)) {x : Elem} {u : Flt ℚ} (hx : x.parts = some (u, .num 0))
    (hint : ∀ n, x = .int n → lo ≤ n ∧ n ≤ hi) : Converts b x (.int (fltToInt lo hi u)) := by
  obtain ⟨z0, z1⟩ := intRange_zero hr
  have hrange := fltToInt_range z0 z1 u
  refine ⟨hT _ hrange.1 hrange.2, ?_, ?_, ?_, ?_, fun h => absurd h hb⟩
  · intro z hz hzb
    have hp := parts_of_number hz
    rw [hx] at hp
    simp only [Option.some.injEq, Prod.mk.injEq, Flt.num.injEq] at hp
    obtain ⟨⟨n, h1, h2, h3⟩, h4⟩ := hH z hzb
    rw [hp.1, h3, fltToInt_trunc (isTrunc_int n) h1 h2]
    show some ((n : ℚ), (0 : ℚ)) = some z
    rw [← h3, ← h4]
  · intro p lo' hi' u v h
    rw [hf] at h; cases h
  · intro q lo' hi' n hq hr' ht h1 h2
    rw [hr] at hr'
    simp only [Option.some.injEq, Prod.mk.injEq] at hr'
    obtain ⟨rfl, rfl⟩ := hr'
    subst hq
    simp only [Elem.parts, Option.some.injEq, Prod.mk.injEq, and_true] at hx
    rw [← hx, fltToInt_trunc ht h1 h2]
  · intro n lo' hi' hn hr'
    rw [hr] at hr'
    simp only [Option.some.injEq, Prod.mk.injEq] at hr'
    obtain ⟨rfl, rfl⟩ := hr'
    obtain ⟨h1, h2⟩ := hint n hn
    subst hn
    simp only [Elem.parts, Option.some.injEq, Prod.mk.injEq, and_true] at hx
    exact ⟨n, by rw [← hx, fltToInt_trunc (isTrunc_int n) h1 h2], by simp⟩

theorem converts_flt {b : DType} {p : Nat} {lo hi : Int} (hr : b.intRange = none)
    (hH : ∀ z, Holds b z → IsFloat p lo hi z.1) (hf : b.format = some (p, lo, hi)) (hb : b ≠ .bool)
    {x y : Elem} {u u' : Flt ℚ} (hx : x.parts = some (u, .num 0)) (hy : y.parts = some (u', .num 0))
    (hyT : y.OfType b) (hround : IsRounding p lo hi u u') (hzero : IsFloat p lo hi 0) : Converts b x y := by
  refine ⟨hyT, ?_, ?_, ?_, ?_, fun h => absurd h hb⟩
  · intro z hz hzb
    have hp := parts_of_number hz
    rw [hx] at hp
    simp only [Option.some.injEq, Prod.mk.injEq, Flt.num.injEq] at hp
    rw [hp.1] at hround
    have hz1 := hH z hzb
    cases u' with
    | num r =>
      have h1 := hround.2 z.1 hz1
      rw [sub_self, abs_zero, abs_nonpos_iff, sub_eq_zero] at h1
      rw [number_of_parts hy, ← h1, hp.2]
    | nan => exact hround.elim
    | posInf => exact absurd (hround z.1 hz1) (lt_irrefl _)
    | negInf => exact absurd (hround z.1 hz1) (lt_irrefl _)
  · intro p' lo' hi' u₁ v₁ h hxp
    rw [hf] at h
    simp only [Option.some.injEq, Prod.mk.injEq] at h
    obtain ⟨rfl, rfl, rfl⟩ := h
    rw [hx] at hxp
    simp only [Option.some.injEq, Prod.mk.injEq] at hxp
    obtain ⟨rfl, rfl⟩ := hxp
    exact ⟨u', .num 0, hy, hround, fun _ => isRounding_self hzero⟩
  · intro q lo' hi' n hq hr'
    rw [hr] at hr'; cases hr'
  · intro n lo' hi' hn hr'
    rw [hr] at hr'; cases hr'

theorem isFloat_zero {p : Nat} {lo hi : Int} (h : lo ≤ hi) : IsFloat p lo hi 0 :=
  ⟨0, lo, by simp, le_refl _, h, by simp⟩

/-- Storing a float whose value is known. -/
theorem writeF64_converts {b : DType} (hb : b.Numeric) {x : Elem} {u : Flt ℚ} (hx : x.parts = some (u, .num 0))
    (hu : IsFlt 53 (-1074) 971 u)
    (hint : ∀ n lo hi, x = .int n → b.intRange = some (lo, hi) → lo ≤ n ∧ n ≤ hi) : Converts b x (writeF64 b u) := by
  have hbool : b = .bool → Converts b x (writeF64 b u) := by
    rintro rfl
    have hval : writeF64 .bool u = .bool false ↔ u = .num 0 := by
      show Elem.bool (!fltEq u (.num 0)) = Elem.bool false ↔ _
      cases u with
      | num q => simp [fltEq]
      | nan => simp [fltEq]
      | posInf => simp [fltEq]
      | negInf => simp [fltEq]
    have htruth : writeF64 .bool u = .bool false ↔ x.number = some (0, 0) := by
      rw [hval]
      constructor
      · rintro rfl
        exact number_of_parts hx
      · intro h
        have := parts_of_number h
        rw [hx] at this
        simp only [Option.some.injEq, Prod.mk.injEq] at this
        exact this.1
    refine ⟨trivial, ?_, ?_, ?_, ?_, fun _ => htruth⟩
    · rintro z hz ⟨⟨n, h1, h2, h3⟩, h4⟩
      have hn : n = 0 ∨ n = 1 := by omega
      rcases hn with rfl | rfl
      · have hz0 : z = (0, 0) := Prod.ext (by simpa using h3) h4
        rw [hz0] at hz ⊢
        rw [htruth.2 hz]; rfl
      · have hz1 : z = (1, 0) := Prod.ext (by simpa using h3) h4
        rw [hz1] at hz ⊢
        have h5 : ¬ (writeF64 .bool u = .bool false) := by
          rw [htruth, hz]; simp
        have h6 : ∃ c, writeF64 .bool u = .bool c := ⟨_, rfl⟩
        obtain ⟨c, hc⟩ := h6
        rw [hc] at h5 ⊢
        cases c
        · exact absurd rfl h5
        · rfl
    · intro p lo hi u v h; cases h
    · intro q lo hi n _ h; cases h
    · intro n lo hi _ h; cases h
  have hI : ∀ lo hi, b.intRange = some (lo, hi) → (∀ z, Holds b z → IsInt lo hi z.1 ∧ z.2 = 0) → b.format = none → b ≠ .bool →
      (∀ n, lo ≤ n → n ≤ hi → Elem.OfType b (.int n)) → writeF64 b u = .int (fltToInt lo hi u) → Converts b x (writeF64 b u) := by
    intro lo hi h1 h2 h3 h4 h5 h6
    rw [h6]
    exact converts_int h1 h2 h3 h4 h5 hx fun n hn => hint n lo hi hn h1
  cases b with
  | bool => exact hbool rfl
  | u8 => exact hI _ _ rfl (fun _ h => h) rfl (by simp) (fun n h1 h2 => ⟨_, _, rfl, h1, h2⟩) rfl
  | u16 => exact hI _ _ rfl (fun _ h => h) rfl (by simp) (fun n h1 h2 => ⟨_, _, rfl, h1, h2⟩) rfl
  | u32 => exact hI _ _ rfl (fun _ h => h) rfl (by simp) (fun n h1 h2 => ⟨_, _, rfl, h1, h2⟩) rfl
  | u64 => exact hI _ _ rfl (fun _ h => h) rfl (by simp) (fun n h1 h2 => ⟨_, _, rfl, h1, h2⟩) rfl
  | i8 => exact hI _ _ rfl (fun _ h => h) rfl (by simp) (fun n h1 h2 => ⟨_, _, rfl, h1, h2⟩) rfl
  | i16 => exact hI _ _ rfl (fun _ h => h) rfl (by simp) (fun n h1 h2 => ⟨_, _, rfl, h1, h2⟩) rfl
  | i32 => exact hI _ _ rfl (fun _ h => h) rfl (by simp) (fun n h1 h2 => ⟨_, _, rfl, h1, h2⟩) rfl
  | i64 => exact hI _ _ rfl (fun _ h => h) rfl (by simp) (fun n h1 h2 => ⟨_, _, rfl, h1, h2⟩) rfl
  | f64 =>
    exact converts_flt (b := .f64) (p := 53) (lo := -1074) (hi := 971) (y := .flt u) rfl (fun _ h => h.1) rfl (by simp) hx rfl hu
      (isRounding_self hu) (isFloat_zero (by norm_num))
  | f32 =>
    exact converts_flt (b := .f32) (p := 24) (lo := -149) (hi := 104) (y := .flt (toFormat 24 (-149) 104 u)) rfl (fun _ h => h.1) rfl
      (by simp) hx rfl (toFormat_isFlt (by norm_num) (by norm_num) u) (toFormat_rounding (by norm_num) (by norm_num) u)
      (isFloat_zero (by norm_num))
  | f16 =>
    exact converts_flt (b := .f16) (p := 11) (lo := -24) (hi := 5) (y := .flt (toFormat 11 (-24) 5 u)) rfl (fun _ h => h.1) rfl
      (by simp) hx rfl (toFormat_isFlt (by norm_num) (by norm_num) u) (toFormat_rounding (by norm_num) (by norm_num) u)
      (isFloat_zero (by norm_num))
  | c128 =>
    exact converts_flt (b := .c128) (p := 53) (lo := -1074) (hi := 971) (y := .cpx u (.num 0)) rfl (fun _ h => h.1) rfl (by simp) hx rfl
      ⟨hu, isFloat_zero (by norm_num)⟩ (isRounding_self hu) (isFloat_zero (by norm_num))
  | c64 =>
    exact converts_flt (b := .c64) (p := 24) (lo := -149) (hi := 104) (y := .cpx (toFormat 24 (-149) 104 u) (.num 0)) rfl
      (fun _ h => h.1) rfl (by simp) hx rfl ⟨toFormat_isFlt (by norm_num) (by norm_num) u, isFloat_zero (by norm_num)⟩
      (toFormat_rounding (by norm_num) (by norm_num) u) (isFloat_zero (by norm_num))
  | str n => exact hb.elim
  | bytes n => exact hb.elim
  | datetime t => exact hb.elim
  | timedelta t => exact hb.elim

/-- Smaller formats are part of the 64-bit one. -/
theorem isFlt_widen {p : Nat} {lo hi : Int} (h1 : p ≤ 53) (h2 : -1074 ≤ lo) (h3 : hi ≤ 971) {u : Flt ℚ} (h : IsFlt p lo hi u) :
    IsFlt 53 (-1074) 971 u := by
  cases u with
  | num q =>
    obtain ⟨m, e, hm, hlo, hhi, hq⟩ := h
    exact ⟨m, e, lt_of_lt_of_le hm (pow_le_pow_right₀ (by norm_num) h1), by omega, by omega, hq⟩
  | nan => trivial
  | posInf => trivial
  | negInf => trivial

theorem isFloat_small {n : Int} (h : n.natAbs ≤ 2 ^ 53) : IsFloat 53 (-1074) 971 (n : ℚ) := by
  by_cases hl : n.natAbs < 2 ^ 53
  · refine ⟨n, 0, ?_, by norm_num, by norm_num, by simp⟩
    rw [Int.abs_eq_natAbs]
    exact_mod_cast hl
  · have he : n.natAbs = 2 ^ 53 := le_antisymm h (not_lt.1 hl)
    rcases Int.natAbs_eq n with h | h
    · refine ⟨1, 53, by norm_num, by norm_num, by norm_num, ?_⟩
      rw [h, he]; norm_num
    · refine ⟨-1, 53, by norm_num, by norm_num, by norm_num, ?_⟩
      rw [h, he]; norm_num

/-- The elements of a real dtype are read exactly, but for integers beyond `2^53`. -/
theorem readF64_real {a : DType} (ha : a.Real) {x : Elem} (hx : x.OfType a) (hint : ∀ n, x = .int n → n.natAbs ≤ 2 ^ 53) :
    ∃ u, readF64 x = some u ∧ x.parts = some (u, .num 0) ∧ IsFlt 53 (-1074) 971 u := by
  cases x with
  | bool c =>
    refine ⟨_, rfl, rfl, ?_⟩
    cases c
    · exact isFloat_zero (by norm_num)
    · exact ⟨1, 0, by norm_num, by norm_num, by norm_num, by simp⟩
  | int n =>
    have hn := hint n rfl
    refine ⟨_, rfl, ?_, ?_⟩
    · rw [intToF64_exact hn]; rfl
    · rw [intToF64_exact hn]; exact isFloat_small hn
  | flt u =>
    refine ⟨u, rfl, rfl, ?_⟩
    cases a <;> first | exact ha.elim | exact hx | exact hx.elim | exact isFlt_widen (by norm_num) (by norm_num) (by norm_num) hx
  | cpx u v => cases a <;> first | exact ha.elim | exact hx.elim
  | text t => cases a <;> first | exact ha.elim | exact hx.elim

theorem castElem_real {a b : DType} (ha : a.Real) (hab : a ≠ b) (x : Elem) :
    castElem a b x = writeF64 b ((readF64 x).getD (.num 0)) := by
  unfold castElem
  rw [if_neg hab]
  cases a <;> first | exact ha.elim | rfl

theorem castElem_converts {a b : DType} (ha : a.Real) (hb : b.Numeric) (hab : a ≠ b) {x : Elem} (hx : x.OfType a)
    (hint : ∀ n, x = .int n → n.natAbs ≤ 2 ^ 53 ∧ ∀ lo hi, b.intRange = some (lo, hi) → lo ≤ n ∧ n ≤ hi) :
    Converts b x (castElem a b x) := by
  obtain ⟨u, h1, h2, h3⟩ := readF64_real ha hx fun n hn => (hint n hn).1
  rw [castElem_real ha hab, h1]
  exact writeF64_converts hb h2 h3 fun n lo hi hn => (hint n hn).2 lo hi

theorem converts_self {b : DType} {x : Elem} (hx : x.OfType b) : Converts b x x := by
  refine ⟨hx, fun z h _ => h, ?_, ?_, ?_, ?_⟩
  · intro p lo hi u v hf hp
    refine ⟨u, v, hp, ?_⟩
    cases x with
    | flt w =>
      simp only [Elem.parts, Option.some.injEq, Prod.mk.injEq] at hp
      obtain ⟨rfl, rfl⟩ := hp
      cases b <;> simp only [DType.format, Option.some.injEq, Prod.mk.injEq, reduceCtorEq] at hf <;>
        first
        | exact hx.elim
        | (obtain ⟨rfl, rfl, rfl⟩ := hf; exact ⟨isRounding_self hx, by simp⟩)
    | cpx w w' =>
      simp only [Elem.parts, Option.some.injEq, Prod.mk.injEq] at hp
      obtain ⟨rfl, rfl⟩ := hp
      cases b <;> simp only [DType.format, Option.some.injEq, Prod.mk.injEq, reduceCtorEq] at hf <;>
        first
        | exact hx.elim
        | (obtain ⟨rfl, rfl, rfl⟩ := hf; exact ⟨isRounding_self hx.1, fun _ => isRounding_self hx.2⟩)
    | bool c => cases b <;> simp only [DType.format, reduceCtorEq] at hf <;> exact hx.elim
    | int n =>
      exfalso
      cases b <;> simp only [DType.format, reduceCtorEq] at hf <;>
        (obtain ⟨_, _, h, _⟩ := hx; simp [DType.intRange] at h)
    | text t => cases hp
  · rintro q lo hi n rfl hr
    cases b <;> simp only [DType.intRange, reduceCtorEq] at hr <;> exact hx.elim
  · rintro n lo hi rfl _
    exact ⟨n, rfl, by simp⟩
  · rintro rfl
    cases x with
    | bool c => cases c <;> simp [Elem.number]
    | int n => obtain ⟨_, _, h, _⟩ := hx; simp [DType.intRange] at h
    | flt w => exact hx.elim
    | cpx w w' => exact hx.elim
    | text t => exact hx.elim

/-! ### Arrays -/

/-- The steps between elements are multiples of the element size. -/
def AlignedAs (a : DType) (v : View) : Prop := v.item = DType.itemsize a ∧ ∀ s ∈ v.strides, (v.item : Int) ∣ s

/-- C70: `astype` converts element by element, whatever the layout of its argument. (The loops for
equal dtypes and for dates count in elements, so they need aligned strides.) -/
theorem C70_elementwise (a b : DType) (h : Held Elem) (hw : h.view.WF) (hal : a = b ∨ bothTime a b = true → AlignedAs a h.view) :
    (astype a b h).Is ⟨h.view.shape, fun i => castElem a b (h.nd.get i)⟩ := by
  unfold astype
  by_cases hab : a = b
  · rw [if_pos hab]
    have := copyArr_eq (decide (a = .f64 ∨ a = .i64)) h.mem hw (fun _ => (hal (Or.inl hab)).2) (zeroElem b)
    have e : (fun i => castElem a b (h.nd.get i)) = (h.view.denote h.mem).get := by
      funext i
      unfold castElem
      rw [if_pos hab]; rfl
    rw [e]
    exact this
  · rw [if_neg hab]
    by_cases ht : bothTime a b = true
    · rw [if_pos ht]
      dsimp only
      rw [sizeOf_eq]
      have hA := hal (Or.inr ht)
      have h8 : DType.itemsize a = 8 := by
        cases a <;> first | rfl | (cases b <;> simp [bothTime] at ht)
      have hst : ∀ s ∈ h.view.strides, (8 : Int) ∣ s := by
        have := hA.2
        rw [hA.1, h8] at this
        exact this
      split
      · next h0 =>
        have : indices h.view.shape = [] := List.eq_nil_of_length_eq_zero (by rw [length_indices, h0])
        refine ⟨rfl, ?_⟩
        simp [h0, Nd.toList, this]
      · refine ⟨rfl, ?_⟩
        dsimp only
        rw [writes_addrs hw (fun o => castElem a b (h.mem (h.view.offset + (o - h.view.offset).tdiv 8 * 8)))
          (List.replicate (size h.view.shape) (zeroElem b)) (by rw [List.length_replicate])]
        unfold Nd.toList
        apply List.map_congr_left
        intro i _
        dsimp only
        have : h.view.offset + (h.view.addr i - h.view.offset).tdiv 8 * 8 = h.view.addr i := by
          unfold View.addr
          rw [add_sub_cancel_left, tdiv_mul_cancel_dvd (byteOffset_dvd hst)]
        rw [this]; rfl
    · rw [if_neg ht]
      unfold castArr
      rw [mapUnaryFallback_eq _ _ hw]
      exact ⟨rfl, rfl⟩

/-- A held array with one element. -/
def oneElem (d : DType) (x : Elem) : Held Elem := ⟨fun _ => x, View.fresh [1] (DType.itemsize d)⟩

example : (astype .f64 .i32 (oneElem .f64 (.flt (.num (-7 / 2))))).data = [.int (-3)] := by decide +kernel

/-- C70: converting real numbers gives what NumPy promises, as long as integers stay within `2^53`
and fit the new dtype: numbers the new dtype can store are kept, floats are rounded to the nearest,
fractions are dropped, NaN and the infinities stay, and exactly zero becomes false. Missing: integers
that do not fit (see `C70_narrow_counterexample`), large ones (`C70_wide_counterexample`), complex
numbers (`C70_complex_counterexample`). -/
theorem C70_astype_partial {a b : DType} (ha : a.Real ∨ a = b) (hb : b.Numeric) (h : Held Elem) (hw : h.view.WF)
    (hal : a = b → AlignedAs a h.view) (hx : ∀ i, InShape h.view.shape i → (h.nd.get i).OfType a)
    (hint : a ≠ b → ∀ i n, InShape h.view.shape i → h.nd.get i = .int n →
      n.natAbs ≤ 2 ^ 53 ∧ ∀ lo hi, b.intRange = some (lo, hi) → lo ≤ n ∧ n ≤ hi) :
    (astype a b h).shape = h.view.shape ∧
      ∀ i, InShape h.view.shape i → ∃ y, (astype a b h).at? i = some y ∧ Converts b (h.nd.get i) y := by
  have his := C70_elementwise a b h hw (by
    rintro (h1 | h1)
    · exact hal h1
    · exfalso
      revert h1 hb
      cases b <;> simp [bothTime, DType.Numeric])
  refine ⟨his.1, fun i hi => ⟨_, his.at? hi, ?_⟩⟩
  by_cases hab : a = b
  · have e : castElem a b (h.nd.get i) = h.nd.get i := by unfold castElem; rw [if_pos hab]
    show Converts b _ (castElem a b (h.nd.get i))
    rw [e]
    exact converts_self (hab ▸ hx i hi)
  · rcases ha with ha | ha
    · exact castElem_converts ha hb hab (hx i hi) fun n hn => hint hab i n hi hn
    · exact absurd ha hab

example : ∃ h : Held Elem, h.view.WF ∧ h.view.shape = [2] ∧ (∀ i, InShape h.view.shape i → (h.nd.get i).OfType .f32) ∧
    (astype .f32 .f16 h).data = [.flt .nan, .flt (.num (1 / 2))] :=
  ⟨⟨fun o => if o = 0 then .flt .nan else .flt (.num (1 / 2)), View.fresh [2] 4⟩, View.WF.fresh _ _, rfl, by
    intro i _
    show Elem.OfType .f32 (if _ then _ else _)
    split
    · trivial
    · exact ⟨1, -1, by norm_num, by norm_num, by norm_num, by norm_num⟩, by decide +kernel⟩

theorem holds_of_ofType {a : DType} (ha : a.Real) {x : Elem} (hx : x.OfType a) {z : ℚ × ℚ} (hz : x.number = some z) : Holds a z := by
  have hp := parts_of_number hz
  cases x with
  | bool c =>
    simp only [Elem.number, Option.some.injEq] at hz
    cases a <;> first | exact ha.elim | exact hx.elim | skip
    rw [← hz]
    cases c
    · exact ⟨⟨0, by norm_num, by norm_num, by simp⟩, rfl⟩
    · exact ⟨⟨1, by norm_num, by norm_num, by simp⟩, rfl⟩
  | int n =>
    simp only [Elem.number, Option.some.injEq] at hz
    rw [← hz]
    cases a <;> first
      | exact ha.elim
      | (obtain ⟨_, _, h, _⟩ := hx; simp [DType.intRange] at h; done)
      | (obtain ⟨lo, hi, h, h1, h2⟩ := hx
         simp only [DType.intRange, Option.some.injEq, Prod.mk.injEq] at h
         obtain ⟨rfl, rfl⟩ := h
         exact ⟨⟨n, h1, h2, rfl⟩, rfl⟩)
  | flt u =>
    simp only [Elem.parts, Option.some.injEq, Prod.mk.injEq, Flt.num.injEq] at hp
    rw [hp.1] at hx
    cases a <;> first | exact ha.elim | exact hx.elim | exact ⟨hx, hp.2.symm⟩
  | cpx u v => cases a <;> first | exact ha.elim | exact hx.elim
  | text t => cases hz

/-- Two elements of a real dtype with equal parts are equal. -/
theorem elem_ext {a : DType} (ha : a.Real) {x y : Elem} (hx : x.OfType a) (hy : y.OfType a) {u : Flt ℚ}
    (h1 : x.parts = some (u, .num 0)) (h2 : ∃ v, y.parts = some (u, v)) : x = y := by
  obtain ⟨v, h2⟩ := h2
  have nb : ∀ n, ¬ Elem.OfType .bool (.int n) := by
    rintro n ⟨_, _, h, _⟩; simp [DType.intRange] at h
  have nf16 : ∀ n, ¬ Elem.OfType .f16 (.int n) := by
    rintro n ⟨_, _, h, _⟩; simp [DType.intRange] at h
  have nf32 : ∀ n, ¬ Elem.OfType .f32 (.int n) := by
    rintro n ⟨_, _, h, _⟩; simp [DType.intRange] at h
  have nf64 : ∀ n, ¬ Elem.OfType .f64 (.int n) := by
    rintro n ⟨_, _, h, _⟩; simp [DType.intRange] at h
  cases x with
  | bool c =>
    cases y with
    | bool d =>
      simp only [Elem.parts, Option.some.injEq, Prod.mk.injEq] at h1 h2
      have := h1.1.trans h2.1.symm
      cases c <;> cases d <;> simp at this <;> rfl
    | int n => cases a <;> first | exact ha.elim | exact hx.elim | exact absurd hy (nb n)
    | flt w => cases a <;> first | exact ha.elim | exact hx.elim | exact hy.elim
    | cpx w w' => cases a <;> first | exact ha.elim | exact hx.elim | exact hy.elim
    | text t => cases h2
  | int n =>
    cases y with
    | bool d => cases a <;> first | exact ha.elim | exact hy.elim | exact absurd hx (nb n)
    | int m =>
      simp only [Elem.parts, Option.some.injEq, Prod.mk.injEq] at h1 h2
      have := h1.1.trans h2.1.symm
      simp only [Flt.num.injEq, Int.cast_inj] at this
      rw [this]
    | flt w => cases a <;> first | exact ha.elim | exact hy.elim | exact absurd hx (nf16 n) | exact absurd hx (nf32 n) | exact absurd hx (nf64 n)
    | cpx w w' => cases a <;> first | exact ha.elim | exact hy.elim
    | text t => cases h2
  | flt w =>
    cases y with
    | bool d => cases a <;> first | exact ha.elim | exact hx.elim | exact hy.elim
    | int n => cases a <;> first | exact ha.elim | exact hx.elim | exact absurd hy (nf16 n) | exact absurd hy (nf32 n) | exact absurd hy (nf64 n)
    | flt w' =>
      simp only [Elem.parts, Option.some.injEq, Prod.mk.injEq] at h1 h2
      rw [h1.1, h2.1]
    | cpx w w' => cases a <;> first | exact ha.elim | exact hy.elim
    | text t => cases h2
  | cpx w w' => cases a <;> first | exact ha.elim | exact hx.elim
  | text t => cases h1

theorem flt_of_nonint {a : DType} (ha : a.Real) {w : Flt ℚ} (hx : Elem.OfType a (.flt w)) :
    Holds a (1 / 2, 0) := by
  have h : ∀ p lo hi, lo ≤ -1 → -1 ≤ hi → 0 < p → IsFloat p lo hi (1 / 2) := by
    intro p lo hi h1 h2 h3
    refine ⟨1, -1, ?_, h1, h2, by norm_num⟩
    rw [abs_one]
    exact one_lt_pow₀ (by norm_num) (by omega)
  cases a <;> first | exact ha.elim | exact hx.elim | exact ⟨h _ _ _ (by norm_num) (by norm_num) (by norm_num), rfl⟩

theorem format_of_half {b : DType} (hb : b.Real) (h : Holds b (1 / 2, 0)) : ∃ p lo hi, b.format = some (p, lo, hi) ∧ b.intRange = none := by
  have hn : ∀ lo hi, ¬ IsInt lo hi (1 / 2) := by
    rintro lo hi ⟨n, _, _, h⟩
    have : (1 : ℚ) = ((2 * n : Int) : ℚ) := by push_cast; linarith
    have : (1 : Int) = 2 * n := by exact_mod_cast this
    omega
  cases b <;> first | exact hb.elim | exact absurd h.1 (hn _ _) | exact ⟨_, _, _, rfl, rfl⟩

theorem cast_round_trip {a b : DType} (ha : a.Real) (hb : b.Real) (hab : a ≠ b) (hfit : Fits a b) {x : Elem} (hx : x.OfType a)
    (hint : ∀ n, x = .int n → n.natAbs ≤ 2 ^ 53) : castElem b a (castElem a b x) = x := by
  have hnum : ∀ d : DType, d.Real → d.Numeric := by intro d; cases d <;> simp [DType.Real, DType.Numeric]
  have hrange : ∀ {n : Int} {d : DType} {lo hi : Int}, Holds d ((n : ℚ), 0) → d.Real → d.intRange = some (lo, hi) → lo ≤ n ∧ n ≤ hi := by
    intro n d lo hi hh hd hr
    cases d <;> first
      | exact hd.elim
      | (simp [DType.intRange] at hr; done)
      | (simp only [DType.intRange, Option.some.injEq, Prod.mk.injEq] at hr
         obtain ⟨rfl, rfl⟩ := hr
         obtain ⟨m, h1, h2, h3⟩ := hh.1
         have : n = m := by dsimp only at h3; exact_mod_cast h3
         rw [this]; exact ⟨h1, h2⟩)
  have c1 : Converts b x (castElem a b x) := castElem_converts ha (hnum b hb) hab hx (by
    rintro n rfl
    exact ⟨hint n rfl, fun lo hi hr => hrange (hfit _ (holds_of_ofType ha hx rfl)) hb hr⟩)
  generalize hy : castElem a b x = y at c1
  have hyint : ∀ n, y = .int n → n.natAbs ≤ 2 ^ 53 ∧ ∀ lo hi, a.intRange = some (lo, hi) → lo ≤ n ∧ n ≤ hi := by
    rintro n rfl
    -- the source is a bool or an integer
    have hzx : x.number = some ((n : ℚ), 0) := by
      cases hxn : x.number with
      | some z =>
        have := c1.exact z hxn (hfit z (holds_of_ofType ha hx hxn))
        rw [← this]; rfl
      | none =>
        exfalso
        have : ∃ w, x = .flt w := by
          cases x with
          | flt w => exact ⟨w, rfl⟩
          | bool c => cases hxn
          | int n => cases hxn
          | cpx w w' => cases a <;> first | exact ha.elim | exact hx.elim
          | text t => cases a <;> first | exact ha.elim | exact hx.elim
        obtain ⟨w, rfl⟩ := this
        obtain ⟨p, lo, hi, hf, hr⟩ := format_of_half hb (hfit _ (flt_of_nonint ha hx))
        obtain ⟨_, _, h, _⟩ : ∃ lo hi, b.intRange = some (lo, hi) ∧ lo ≤ n ∧ n ≤ hi := by
          have := c1.typed
          cases b <;> first | exact hb.elim | exact this
        rw [hr] at h; cases h
    have hah := holds_of_ofType ha hx hzx
    refine ⟨?_, fun lo hi hr => hrange hah ha hr⟩
    cases x with
    | int m =>
      have : (m : ℚ) = n := by simpa [Elem.number] using hzx
      have : m = n := by exact_mod_cast this
      rw [← this]; exact hint m rfl
    | bool c =>
      simp only [Elem.number, Option.some.injEq, Prod.mk.injEq, and_true] at hzx
      have : n = 0 ∨ n = 1 := by
        cases c
        · left; simpa using hzx.symm
        · right
          have : (1 : ℚ) = n := by simpa using hzx
          exact_mod_cast this.symm
      rcases this with rfl | rfl <;> norm_num
    | flt w =>
      exfalso
      obtain ⟨p, lo, hi, hf, hr⟩ := format_of_half hb (hfit _ (flt_of_nonint ha hx))
      obtain ⟨_, _, h, _⟩ : ∃ lo hi, b.intRange = some (lo, hi) ∧ lo ≤ n ∧ n ≤ hi := by
        have := c1.typed
        cases b <;> first | exact hb.elim | exact this
      rw [hr] at h; cases h
    | cpx w w' => cases a <;> first | exact ha.elim | exact hx.elim
    | text t => cases hzx
  have c2 := castElem_converts hb (hnum a ha) (Ne.symm hab) c1.typed hyint
  generalize castElem b a y = x' at c2
  have hpx : ∃ u, x.parts = some (u, .num 0) := by
    obtain ⟨u, -, h, -⟩ := readF64_real ha hx hint
    exact ⟨u, h⟩
  obtain ⟨u, hu⟩ := hpx
  refine (elem_ext ha hx c2.typed hu ?_).symm
  cases hxn : x.number with
  | some z =>
    have h1 := holds_of_ofType ha hx hxn
    have h2 := c2.exact z (c1.exact z hxn (hfit z h1)) h1
    have h3 := parts_of_number hxn
    rw [hu] at h3
    simp only [Option.some.injEq, Prod.mk.injEq] at h3
    rw [h3.1]
    exact ⟨_, parts_of_number h2⟩
  | none =>
    have hu' : ∀ q, u ≠ .num q := by
      rintro q rfl
      rw [number_of_parts hu] at hxn; cases hxn
    have hxf : x = .flt u := by
      cases x with
      | flt w => simp only [Elem.parts, Option.some.injEq, Prod.mk.injEq] at hu; rw [hu.1]
      | bool c => cases hxn
      | int n => cases hxn
      | cpx w w' => cases a <;> first | exact ha.elim | exact hx.elim
      | text t => cases hu
    subst hxf
    have ha2 := flt_of_nonint ha hx
    obtain ⟨p, lo, hi, hf, -⟩ := format_of_half hb (hfit _ ha2)
    obtain ⟨p', lo', hi', hf', -⟩ := format_of_half ha ha2
    obtain ⟨u₁, v₁, h1, h2, -⟩ := c1.float p lo hi u (.num 0) hf hu
    have e1 : u₁ = u := by
      cases u with
      | num q => exact absurd rfl (hu' q)
      | nan => exact h2.symm
      | posInf => exact h2.symm
      | negInf => exact h2.symm
    rw [e1] at h1
    obtain ⟨u₂, v₂, h3, h4, -⟩ := c2.float p' lo' hi' u v₁ hf' h1
    have e2 : u₂ = u := by
      cases u with
      | num q => exact absurd rfl (hu' q)
      | nan => exact h4.symm
      | posInf => exact h4.symm
      | negInf => exact h4.symm
    exact ⟨v₂, by rw [h3, e2]⟩

theorem nottime_of_real {a b : DType} (h : a.Real) : bothTime a b = false ∧ bothTime b a = false := by
  cases a <;> first | exact h.elim | (cases b <;> exact ⟨rfl, rfl⟩)

/-- C70: converting to a dtype that can store every value, and back, gives the original array.
(Integers up to `2^53`, which all but 64-bit ones are.) -/
theorem C70_round_trip_partial {a b : DType} (ha : a.Real) (hb : b.Real) (hab : a ≠ b) (hfit : Fits a b) (h : Held Elem) (hw : h.view.WF)
    (hx : ∀ i, InShape h.view.shape i → (h.nd.get i).OfType a)
    (hint : ∀ i n, InShape h.view.shape i → h.nd.get i = .int n → n.natAbs ≤ 2 ^ 53) :
    (astype b a (Held.of (astype a b h) (DType.itemsize b) (zeroElem b))).Is h.nd := by
  have h1 := C70_elementwise a b h hw (by
    rintro (h1 | h1)
    · exact absurd h1 hab
    · rw [(nottime_of_real ha).1] at h1; cases h1)
  have hsz : 0 < DType.itemsize b := by cases b <;> first | exact hb.elim | (simp [DType.itemsize])
  have hden := h1.denote hsz (zeroElem b)
  generalize hg : Held.of (astype a b h) (DType.itemsize b) (zeroElem b) = g
  have hgw : g.view.WF := by rw [← hg]; exact View.WF.fresh _ _
  have hgs : g.view.shape = h.view.shape := by rw [← hg]; exact h1.1
  have hgn : g.nd.Same ⟨h.view.shape, fun i => castElem a b (h.nd.get i)⟩ := by rw [← hg]; exact hden
  have h2 := C70_elementwise b a g hgw (by
    rintro (h1 | h1)
    · exact absurd h1.symm hab
    · rw [(nottime_of_real ha).2] at h1; cases h1)
  refine Arr.Is.congr h2 ⟨hgs, ?_⟩
  intro i hi
  have hi' : InShape h.view.shape i := hgs ▸ hi
  show castElem b a (g.nd.get i) = h.nd.get i
  have e : g.nd.get i = castElem a b (h.nd.get i) := hgn.2 i hi
  rw [e]
  exact cast_round_trip ha hb hab hfit (hx i hi') fun n hn => hint i n hi' hn

example : Fits .i32 .f64 ∧ (astype .f64 .i32 (Held.of (astype .i32 .f64 (oneElem .i32 (.int (-2 ^ 31)))) 8 (zeroElem .f64))).data =
    [.int (-2 ^ 31)] := ⟨(fits_iff (a := .i32) (b := .f64) trivial trivial).2 (by decide +kernel), by decide +kernel⟩

/-- C70: integers become 64-bit floats by rounding to the nearest, also beyond `2^53`. -/
theorem C70_int_to_float {a : DType} (ha : a.Real) (h : Held Elem) (hw : h.view.WF)
    (hx : ∀ i, InShape h.view.shape i → (h.nd.get i).OfType a) :
    ∀ i n, InShape h.view.shape i → h.nd.get i = .int n →
      ∃ r, (astype a .f64 h).at? i = some (.flt (.num r)) ∧ IsRounding 53 (-1074) 971 (.num n) (.num r) := by
  intro i n hi hn
  have hxi := hx i hi
  rw [hn] at hxi
  obtain ⟨lo, hi', hr, h1, h2⟩ : ∃ lo hi, a.intRange = some (lo, hi) ∧ lo ≤ n ∧ n ≤ hi := by
    cases a <;> first | exact ha.elim | exact hxi
  have hab : a ≠ .f64 := by rintro rfl; cases hr
  have hlt : n.natAbs < 2 ^ 65 := by
    cases a <;> simp only [DType.intRange, Option.some.injEq, Prod.mk.injEq, reduceCtorEq] at hr <;> omega
  have his := C70_elementwise a .f64 h hw (by
    rintro (h1 | h1)
    · exact absurd h1 hab
    · rw [(nottime_of_real ha).1] at h1; cases h1)
  refine ⟨intToF64 n, ?_, ?_⟩
  · rw [his.at? hi]
    dsimp only
    rw [hn, castElem_real ha hab]; rfl
  · have := toFormat_rounding (p := 53) (lo := -1074) (hi := 971) (by norm_num) (by norm_num) (.num (n : ℚ))
    rw [show toFormat 53 (-1074) 971 (.num (n : ℚ)) = _ from intToF64_round hlt] at this
    exact this

example : (astype .i64 .f64 (oneElem .i64 (.int (2 ^ 53 + 1)))).data = [.flt (.num (2 ^ 53))] := by decide +kernel

/-- C70: dates and durations change their unit one by one, and not-a-time stays. (What the change of
unit does is C30.) -/
theorem C70_time {a b : DType} {u w : TimeUnit} (hk : a = .datetime u ∧ b = .datetime w ∨ a = .timedelta u ∧ b = .timedelta w)
    (h : Held Elem) (hw : h.view.WF) (hal : AlignedAs a h.view) :
    (astype a b h).shape = h.view.shape ∧ ∀ i n, InShape h.view.shape i → h.nd.get i = .int n →
      (astype a b h).at? i = some (.int (convertDatetime n u w)) ∧
        (n = NaT → (astype a b h).at? i = some (.int NaT)) := by
  have his := C70_elementwise a b h hw fun _ => hal
  refine ⟨his.1, ?_⟩
  intro i n hi hn
  have e : castElem a b (.int n) = .int (convertDatetime n u w) := by
    unfold castElem
    split
    · next hab =>
      have huw : u = w := by
        rcases hk with ⟨rfl, rfl⟩ | ⟨rfl, rfl⟩ <;> injection hab
      rw [huw]
      unfold convertDatetime
      split
      · next hn => rw [hn]
      · rw [if_pos rfl]
    · rcases hk with ⟨rfl, rfl⟩ | ⟨rfl, rfl⟩ <;> rfl
  have h1 : (astype a b h).at? i = some (.int (convertDatetime n u w)) := by
    rw [his.at? hi]
    dsimp only
    rw [hn, e]
  refine ⟨h1, ?_⟩
  rintro rfl
  rw [h1, C30_nat]

example : (astype (.datetime .D) (.datetime .s) (oneElem (.datetime .D) (.int 2))).data = [.int 172800] := by decide +kernel

/-! ### Where the code differs -/

/-- C70 fails: an integer that does not fit is clamped, not reduced modulo the number of values. -/
theorem C70_narrow_counterexample :
    (astype .i32 .u8 (oneElem .i32 (.int 300))).data = [.int 255] ∧ ¬ Converts .u8 (.int 300) (.int 255) ∧
      Converts .u8 (.int 300) (.int 44) ∧
      (astype .i64 .u64 (oneElem .i64 (.int (-1)))).data = [.int 0] ∧ ¬ Converts .u64 (.int (-1)) (.int 0) := by
  refine ⟨by decide +kernel, ?_, ?_, by decide +kernel, ?_⟩
  · intro h
    obtain ⟨m, h1, h2⟩ := h.wrap 300 0 (2 ^ 8 - 1) rfl rfl
    injection h1 with h1
    subst h1
    revert h2; decide
  · refine ⟨⟨0, 2 ^ 8 - 1, rfl, by norm_num, by norm_num⟩, ?_, ?_, ?_, ?_, fun h => nomatch h⟩
    · intro z hz hh
      simp only [Elem.number, Option.some.injEq] at hz
      rw [← hz] at hh
      obtain ⟨n, h1, h2, h3⟩ := hh.1
      have : (300 : Int) = n := by dsimp only at h3; exact_mod_cast h3
      omega
    · intro p lo hi u v h; cases h
    · intro q lo hi n h; cases h
    · intro n lo hi h1 h2
      injection h1 with h1
      simp only [DType.intRange, Option.some.injEq, Prod.mk.injEq] at h2
      exact ⟨44, rfl, by rw [← h1, ← h2.1, ← h2.2]; decide⟩
  · intro h
    obtain ⟨m, h1, h2⟩ := h.wrap (-1) 0 (2 ^ 64 - 1) rfl rfl
    injection h1 with h1
    subst h1
    revert h2; decide

/-- C70 fails: 64-bit integers pass through a float on their way to another integer dtype, and are
rounded twice on their way to a smaller float. -/
theorem C70_wide_counterexample :
    (astype .i64 .u64 (oneElem .i64 (.int (2 ^ 63 - 1)))).data = [.int (2 ^ 63)] ∧ ¬ Converts .u64 (.int (2 ^ 63 - 1)) (.int (2 ^ 63)) ∧
      (astype .i64 .f32 (oneElem .i64 (.int (2 ^ 60 + 2 ^ 36 + 1)))).data = [.flt (.num (2 ^ 60))] ∧
      ¬ Converts .f32 (.int (2 ^ 60 + 2 ^ 36 + 1)) (.flt (.num (2 ^ 60))) := by
  refine ⟨by decide +kernel, ?_, by decide +kernel, ?_⟩
  · intro h
    obtain ⟨m, h1, h2⟩ := h.wrap (2 ^ 63 - 1) 0 (2 ^ 64 - 1) rfl rfl
    injection h1 with h1
    subst h1
    revert h2; decide
  · intro h
    obtain ⟨u, v, h1, h2, -⟩ := h.float 24 (-149) 104 _ _ rfl rfl
    simp only [Elem.parts, Option.some.injEq, Prod.mk.injEq] at h1
    rw [← h1.1] at h2
    have := h2.2 (2 ^ 60 + 2 ^ 37) ⟨2 ^ 23 + 1, 37, by norm_num, by norm_num, by norm_num, by norm_num⟩
    norm_num [abs_le] at this

/-- C70 fails: complex numbers cannot be read as floats, so every conversion of them gives zeros,
even to the other complex dtype. -/
theorem C70_complex_counterexample :
    (astype .c64 .c128 (oneElem .c64 (.cpx (.num 1) (.num 2)))).data = [.cpx (.num 0) (.num 0)] ∧
      ¬ Converts .c128 (.cpx (.num 1) (.num 2)) (.cpx (.num 0) (.num 0)) ∧
      (astype .c128 .f64 (oneElem .c128 (.cpx (.num 1) (.num 0)))).data = [.flt (.num 0)] ∧
      ¬ Converts .f64 (.cpx (.num 1) (.num 0)) (.flt (.num 0)) ∧
      (astype .c128 .bool (oneElem .c128 (.cpx (.num 1) (.num 0)))).data = [.bool false] ∧
      ¬ Converts .bool (.cpx (.num 1) (.num 0)) (.bool false) := by
  have h1 : IsFloat 53 (-1074) 971 1 := ⟨1, 0, by norm_num, by norm_num, by norm_num, by simp⟩
  have h2 : IsFloat 53 (-1074) 971 2 := ⟨2, 0, by norm_num, by norm_num, by norm_num, by simp⟩
  refine ⟨by decide +kernel, ?_, by decide +kernel, ?_, by decide +kernel, ?_⟩
  · intro h
    have := h.exact (1, 2) rfl ⟨h1, h2⟩
    simp [Elem.number] at this
  · intro h
    have := h.exact (1, 0) rfl ⟨h1, rfl⟩
    simp [Elem.number] at this
  · intro h
    have := (h.truth rfl).1 rfl
    simp [Elem.number] at this

/-- C70 fails: text is neither read nor written, so numbers become empty strings and strings zeros;
not-a-time becomes a large negative float and NaN the epoch. -/
theorem C70_text_counterexample :
    (astype (.str 1) .f64 (oneElem (.str 1) (.text ['7']))).data = [.flt (.num 0)] ∧
      (astype .i64 (.str 8) (oneElem .i64 (.int 7))).data = [.text []] ∧
      (astype (.str 1) (.str 2) (oneElem (.str 1) (.text ['a']))).data = [.text []] ∧
      (astype (.datetime .D) .f64 (oneElem (.datetime .D) (.int NaT))).data = [.flt (.num (-2 ^ 63))] ∧
      (astype .f64 (.datetime .D) (oneElem .f64 (.flt .nan))).data = [.int 0] := by
  refine ⟨by decide +kernel, by decide +kernel, by decide +kernel, by decide +kernel, by decide +kernel⟩

end Props
