import Verif.Model.DTypeInfo
import Verif.Lemmas.Cast
import Verif.Lemmas.Special
import Verif.Props.Complex
/-!
# Lemmas: questions about dtypes
-/

namespace Rumpy
open Spec

theorem lookup_mem {β : Type} {l : List (String × β)} {s : String} {b : β} (h : l.lookup s = some b) : (s, b) ∈ l := by
  induction l with
  | nil => cases h
  | cons p l ih =>
    obtain ⟨a, c⟩ := p
    rw [List.lookup_cons] at h
    by_cases e : s = a
    · subst e
      rw [beq_self_eq_true] at h
      cases h
      exact List.mem_cons_self ..
    · rw [beq_eq_false_iff_ne.mpr e] at h
      exact List.mem_cons_of_mem _ (ih h)

theorem normalizeDtype_cases (s : String) : normalizeDtype s = s ∨ ∃ t, (s, t) ∈ normalNames ∧ normalizeDtype s = t := by
  unfold normalizeDtype
  cases h : normalNames.lookup s with
  | none => exact Or.inl rfl
  | some t => exact Or.inr ⟨t, lookup_mem h, rfl⟩

theorem parseDType_normalize (s : String) : parseDType (normalizeDtype s) = parseDType s := by
  have key : ∀ p ∈ normalNames, parseDType p.2 = parseDType p.1 := by decide +kernel
  rcases normalizeDtype_cases s with h | ⟨t, ht, h⟩
  · rw [h]
  · rw [h]; exact key _ ht

theorem normalizeDtype_idem (s : String) : normalizeDtype (normalizeDtype s) = normalizeDtype s := by
  have key : ∀ p ∈ normalNames, normalizeDtype p.2 = p.2 := by decide +kernel
  rcases normalizeDtype_cases s with h | ⟨t, ht, h⟩
  · rw [h, h]
  · rw [h]; exact key _ ht

theorem dtypeFromString_eq (s : String) : dtypeFromString (normalizeDtype s) = parseDType s := by
  unfold dtypeFromString
  rw [normalizeDtype_idem, parseDType_normalize]

/-- A dtype that is not text is named by an entry of the table. -/
theorem parseDType_mem {s : String} {d : DType} (h : parseDType s = some d) (hn : d.Numeric) : (s, d) ∈ dtypeNames := by
  unfold parseDType at h
  cases hl : dtypeNames.lookup s with
  | some e =>
    rw [hl] at h
    cases h
    exact lookup_mem hl
  | none =>
    rw [hl] at h
    dsimp only at h
    split at h
    · obtain ⟨n, -, rfl⟩ := Option.map_eq_some_iff.mp h
      exact hn.elim
    · obtain ⟨n, -, rfl⟩ := Option.map_eq_some_iff.mp h
      exact hn.elim
    · cases h

/-- What `finfo` should say about a format, for every format. -/
theorem isFinfo_format {p : Nat} {lo hi : Int} (hp : 2 ≤ p) (hlo : lo ≤ -p) (hhi : 0 ≤ hi) {prec : Nat}
    (hd : (10 : ℚ) ^ prec * 2 ^ (1 - (p : Int)) ≤ 1 ∧ 1 < (10 : ℚ) ^ (prec + 1) * 2 ^ (1 - (p : Int))) :
    IsFinfo p lo hi (2 ^ (1 - (p : Int))) (((2 ^ p - 1 : Int) : ℚ) * 2 ^ hi) (-(((2 ^ p - 1 : Int) : ℚ) * 2 ^ hi))
      (2 ^ (lo + p - 1)) (1 - p) (-p) (lo + p - 1) (hi + p) prec := by
  have hL := (Props.C85_nan_to_num_default p lo hi (by omega) (by omega) .nan (fun q h => by cases h)).1
  have two : (2 : ℚ) ≠ 0 := by norm_num
  have hcast : ((2 : Int) ^ p : ℚ) = (2 : ℚ) ^ (p : Int) := by push_cast; rw [zpow_natCast]
  have hsplit : (2 : Int) ^ p = 2 * 2 ^ (p - 1) := by rw [← pow_succ']; congr 1; omega
  have hP1 : (1 : Int) < 2 ^ (p - 1) := one_lt_pow₀ (by norm_num) (by omega)
  have hPu : ((2 ^ (p - 1) : Int) : ℚ) * 2 ^ (1 - (p : Int)) = 1 := by
    push_cast
    rw [← zpow_natCast, ← zpow_add₀ two]
    have : ((p - 1 : Nat) : Int) + (1 - (p : Int)) = 0 := by omega
    rw [this, zpow_zero]
  have hPn : ((2 ^ p : Int) : ℚ) * 2 ^ (-(p : Int)) = 1 := by
    push_cast
    rw [← zpow_natCast, ← zpow_add₀ two, add_neg_cancel, zpow_zero]
  have hbound : ∀ m e : Int, |m| < 2 ^ p → (m : ℚ) * 2 ^ e < 2 ^ ((p : Int) + e) := by
    intro m e hm
    rw [zpow_add₀ two]
    apply mul_lt_mul_of_pos_right _ (two_zpow_pos e)
    rw [zpow_natCast]
    exact_mod_cast (abs_lt.mp hm).2
  constructor
  · refine ⟨two_zpow_pos _, 2 ^ (p - 1) + 1, 1 - p, ?_, by omega, by omega, ?_⟩
    · rw [abs_of_pos (by omega)]; omega
    · rw [Int.cast_add, add_mul, hPu, Int.cast_one, one_mul]
  · rintro t ⟨m, e, hm, -, -, rfl⟩ ht
    by_cases he : 1 - (p : Int) ≤ e
    · obtain ⟨n, hn⟩ := zpow_multiple m he
      rw [hn] at ht ⊢
      rw [← hPu] at ht
      have h1 := lt_of_mul_lt_mul_right ht (two_zpow_pos _).le
      have h2 : (2 ^ (p - 1) : Int) < n := by exact_mod_cast h1
      have h3 : ((2 ^ (p - 1) + 1 : Int) : ℚ) ≤ n := by exact_mod_cast h2
      have h4 := mul_le_mul_of_nonneg_right h3 (two_zpow_pos (1 - (p : Int))).le
      rwa [Int.cast_add, add_mul, hPu, Int.cast_one, one_mul] at h4
    · exfalso
      have h1 := hbound m e hm
      have h2 : (2 : ℚ) ^ ((p : Int) + e) ≤ 2 ^ (0 : Int) := two_zpow_le (by omega)
      rw [zpow_zero] at h2
      linarith
  · rfl
  · refine ⟨2 ^ p - 1, -p, ?_, hlo, by omega, ?_⟩
    · rw [abs_of_pos (by omega)]; omega
    · rw [Int.cast_sub, sub_mul, hPn, Int.cast_one, one_mul]
  · rintro t ⟨m, e, hm, -, -, rfl⟩ ht
    by_cases he : -(p : Int) ≤ e
    · obtain ⟨n, hn⟩ := zpow_multiple m he
      rw [hn] at ht ⊢
      rw [← hPn] at ht
      have h1 := lt_of_mul_lt_mul_right ht (two_zpow_pos _).le
      have h2 : n < (2 ^ p : Int) := by exact_mod_cast h1
      have h2' : n ≤ 2 ^ p - 1 := by omega
      have h3 : (n : ℚ) ≤ ((2 ^ p - 1 : Int) : ℚ) := by exact_mod_cast h2'
      have h4 := mul_le_mul_of_nonneg_right h3 (two_zpow_pos (-(p : Int))).le
      rwa [Int.cast_sub, sub_mul, hPn, Int.cast_one, one_mul] at h4
    · have h1 := hbound m e hm
      have h2 : (2 : ℚ) ^ ((p : Int) + e) ≤ 2 ^ (-1 : Int) := two_zpow_le (by omega)
      have h3 : (2 : ℚ) ^ (-(p : Int)) ≤ 2 ^ (-1 : Int) := two_zpow_le (by omega)
      have h4 : (2 : ℚ) ^ (-1 : Int) = 1 / 2 := by norm_num
      rw [h4] at h2 h3
      linarith
  · exact hL
  · refine ⟨isFloat_neg hL.1, fun t ht => ?_⟩
    have := hL.2 (-t) (isFloat_neg ht)
    linarith
  · rfl
  · refine ⟨2 ^ (p - 1), lo, le_refl _, by omega, le_refl _, by omega, ?_⟩
    push_cast
    rw [← zpow_natCast, ← zpow_add₀ two]
    congr 1
    omega
  · intro m e hm _ he _
    have e1 : (2 : ℚ) ^ (lo + p - 1) = ((2 ^ (p - 1) : Int) : ℚ) * 2 ^ lo := by
      push_cast
      rw [← zpow_natCast, ← zpow_add₀ two]
      congr 1
      omega
    rw [e1]
    have h0 : (0 : ℚ) ≤ (m : ℚ) := by
      have : (0 : Int) ≤ m := by omega
      exact_mod_cast this
    calc ((2 ^ (p - 1) : Int) : ℚ) * 2 ^ lo ≤ (m : ℚ) * 2 ^ lo :=
          mul_le_mul_of_nonneg_right (by exact_mod_cast hm) (two_zpow_pos lo).le
      _ ≤ (m : ℚ) * 2 ^ e := mul_le_mul_of_nonneg_left (two_zpow_le he) h0
  · have e1 : (2 : ℚ) ^ (hi + p) = ((2 ^ p : Int) : ℚ) * 2 ^ hi := by
      push_cast
      rw [← zpow_natCast, ← zpow_add₀ two, add_comm]
    have e2 : (2 : ℚ) ^ (hi + p - 1) = ((2 ^ (p - 1) : Int) : ℚ) * 2 ^ hi := by
      push_cast
      rw [← zpow_natCast, ← zpow_add₀ two]
      congr 1
      omega
    rw [e1, e2]
    constructor
    · apply mul_lt_mul_of_pos_right _ (two_zpow_pos hi)
      have : (2 ^ p - 1 : Int) < 2 ^ p := by omega
      exact_mod_cast this
    · apply mul_le_mul_of_nonneg_right _ (two_zpow_pos hi).le
      have : (2 ^ (p - 1) : Int) ≤ 2 ^ p - 1 := by omega
      exact_mod_cast this
  · exact hd

theorem isSmallest_format {p : Nat} {lo hi : Int} (hp : 0 < p) (hlh : lo ≤ hi) : IsSmallest p lo hi (2 ^ lo) := by
  refine ⟨two_zpow_pos lo, ⟨1, lo, ?_, le_refl _, hlh, by simp⟩, ?_⟩
  · rw [abs_one]; exact one_lt_pow₀ (by norm_num) (by omega)
  · rintro t ⟨m, e, -, he, -, rfl⟩ ht
    have h1 : (0 : ℚ) < m := (pos_iff_pos_of_mul_pos ht).mpr (two_zpow_pos e)
    have h2 : (1 : Int) ≤ m := by
      have : (0 : Int) < m := by exact_mod_cast h1
      omega
    have h3 : (1 : ℚ) ≤ m := by exact_mod_cast h2
    calc (2 : ℚ) ^ lo ≤ 2 ^ e := two_zpow_le he
      _ = 1 * 2 ^ e := (one_mul _).symm
      _ ≤ m * 2 ^ e := mul_le_mul_of_nonneg_right h3 (two_zpow_pos e).le

/-- The size `common_type` counts for a dtype. -/
def floatSize : DType → Nat
  | .c128 => 16
  | .f32 => 4
  | .f16 => 2
  | _ => 8

theorem commonStep_fst (acc : Bool × Nat) (d : DType) : (commonStep acc d).1 = true ↔ acc.1 = true ∨ d ∈ complexTypes := by
  cases d <;> simp [commonStep, complexTypes]

theorem commonStep_snd (acc : Bool × Nat) (d : DType) : (commonStep acc d).2 = max acc.2 (floatSize d) := by
  cases d <;> rfl

theorem commonFold (ds : List DType) (acc : Bool × Nat) :
    ((ds.foldl commonStep acc).1 = true ↔ acc.1 = true ∨ ∃ d ∈ ds, d ∈ complexTypes) ∧
    ∀ k, k ≤ (ds.foldl commonStep acc).2 ↔ k ≤ acc.2 ∨ ∃ d ∈ ds, k ≤ floatSize d := by
  induction ds generalizing acc with
  | nil => simp
  | cons d ds ih =>
    obtain ⟨h1, h2⟩ := ih (commonStep acc d)
    rw [List.foldl_cons]
    refine ⟨?_, fun k => ?_⟩
    · rw [h1, commonStep_fst]
      simp only [List.mem_cons, exists_eq_or_imp, or_assoc]
    · rw [h2, commonStep_snd, le_max_iff]
      simp only [List.mem_cons, exists_eq_or_imp, or_assoc]

end Rumpy
