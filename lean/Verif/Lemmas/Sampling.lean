import Verif.Spec.Sampling
import Verif.Model.Sampling
import Verif.Props.Cast
import Mathlib.Tactic.Linarith
import Mathlib.Tactic.NormNum

/-!
# Lemmas on samples
-/

namespace Rumpy

open Spec

section
variable {σ α β : Type}

/-- The loop is the request repeated. -/
theorem drawList_iff (f : σ → Option (α × σ)) (n : Nat) (g : σ) (xs : List α) (g' : σ) :
    drawList f n g = some (xs, g') ↔ InARow f n g xs g' := by
  induction n generalizing g xs with
  | zero =>
    constructor
    · intro h
      cases h
      exact .done _
    · intro h
      cases h
      rfl
  | succ n ih =>
    unfold drawList
    constructor
    · intro h
      cases h1 : f g with
      | none => rw [h1] at h; cases h
      | some r =>
        obtain ⟨x, g1⟩ := r
        rw [h1] at h
        dsimp only at h
        cases h2 : drawList f n g1 with
        | none => rw [h2] at h; cases h
        | some q =>
          obtain ⟨ys, g2⟩ := q
          rw [h2] at h
          cases h
          exact .next h1 ((ih g1 ys).mp h2)
    · intro h
      cases h with
      | next h1 h2 =>
        rw [h1]
        dsimp only
        rw [(ih _ _).mpr h2]

theorem drawList_map (f : σ → Option (α × σ)) (c : α → β) (n : Nat) (g : σ) :
    drawList (fun g => (f g).map fun r => (c r.1, r.2)) n g = (drawList f n g).map fun r => (r.1.map c, r.2) := by
  induction n generalizing g with
  | zero => rfl
  | succ n ih =>
    unfold drawList
    cases f g with
    | none => rfl
    | some r =>
      obtain ⟨x, g1⟩ := r
      simp only [Option.map_some]
      rw [ih g1]
      cases drawList f n g1 with
      | none => rfl
      | some q => rfl

theorem drawList_succ (f : σ → Option (α × σ)) (n : Nat) (g : σ) :
    drawList f (n + 1) g = (f g).bind fun r => (drawList f n r.2).map fun q => (r.1 :: q.1, q.2) := by
  show (match f g with | none => none | some (x, g) => match drawList f n g with | none => none | some (xs, g) => some (x :: xs, g)) = _
  cases f g with
  | none => rfl
  | some r =>
    obtain ⟨x, g1⟩ := r
    simp only [Option.bind_some]
    cases drawList f n g1 <;> rfl

theorem drawList_append (f : σ → Option (α × σ)) (m n : Nat) (g : σ) :
    drawList f (m + n) g = (drawList f m g).bind fun r => (drawList f n r.2).map fun q => (r.1 ++ q.1, q.2) := by
  induction m generalizing g with
  | zero =>
    rw [Nat.zero_add]
    cases h : drawList f n g <;> simp [drawList, h]
  | succ m ih =>
    rw [Nat.succ_add, drawList_succ, drawList_succ]
    cases f g with
    | none => rfl
    | some r =>
      simp only [Option.bind_some]
      rw [ih r.2]
      cases drawList f m r.2 with
      | none => rfl
      | some q =>
        simp only [Option.bind_some, Option.map_some]
        cases drawList f n q.2 <;> rfl

theorem drawList_length (f : σ → Option (α × σ)) (n : Nat) (g : σ) (xs : List α) (g' : σ) (h : drawList f n g = some (xs, g')) :
    xs.length = n := by
  have := (drawList_iff f n g xs g').mp h
  clear h
  induction this with
  | done => rfl
  | next _ _ ih => rw [List.length_cons, ih]

end

theorem fltMul_comm (p : Nat) (lo hi : Int) (x y : Flt ℚ) : fltMul p lo hi x y = fltMul p lo hi y x := by
  cases x <;> cases y <;> unfold fltMul <;> first | rfl | (dsimp only; rw [mul_comm])

/-- Cutting off the fraction of a double gives a double. -/
theorem isFloat_trunc {q : ℚ} (h : IsFloat 53 (-1074) 971 q) :
    IsFloat 53 (-1074) 971 ((if 0 ≤ q then ⌊q⌋ else ⌈q⌉ : Int) : ℚ) := by
  obtain ⟨m, e, hm, hlo, hhi, rfl⟩ := h
  by_cases he : 0 ≤ e
  · obtain ⟨k, rfl⟩ := Int.eq_ofNat_of_zero_le he
    have hz : (m : ℚ) * (2 : ℚ) ^ (k : Int) = ((m * 2 ^ k : Int) : ℚ) := by push_cast; rw [zpow_natCast]
    have hfl : (if 0 ≤ (m : ℚ) * (2 : ℚ) ^ (k : Int) then ⌊(m : ℚ) * (2 : ℚ) ^ (k : Int)⌋ else ⌈(m : ℚ) * (2 : ℚ) ^ (k : Int)⌉)
        = m * 2 ^ k := by
      rw [hz, Int.floor_intCast, Int.ceil_intCast, ite_self]
    rw [hfl, ← hz]
    exact ⟨m, k, hm, hlo, hhi, rfl⟩
  · apply Props.isFloat_small
    have hp : (0 : ℚ) < (2 : ℚ) ^ e := by positivity
    have h1 : (2 : ℚ) ^ e ≤ 1 := by
      have := zpow_le_zpow_right₀ (a := (2 : ℚ)) (by norm_num) (show e ≤ 0 by omega)
      simpa using this
    have hml := (abs_lt.mp hm)
    split
    · next h0 =>
      have hm0 : (0 : ℚ) ≤ m := by
        by_contra hc
        push Not at hc
        have := mul_neg_of_neg_of_pos hc hp
        linarith
      have hle : (m : ℚ) * (2 : ℚ) ^ e ≤ m := by nlinarith
      have h2 : ⌊(m : ℚ) * (2 : ℚ) ^ e⌋ ≤ m := by
        have := Int.floor_le_floor hle
        rwa [Int.floor_intCast] at this
      have h3 : 0 ≤ ⌊(m : ℚ) * (2 : ℚ) ^ e⌋ := Int.floor_nonneg.mpr h0
      omega
    · next h0 =>
      push Not at h0
      have hm0 : (m : ℚ) ≤ 0 := by
        by_contra hc
        push Not at hc
        have := mul_pos hc hp
        linarith
      have hle : (m : ℚ) ≤ (m : ℚ) * (2 : ℚ) ^ e := by nlinarith
      have h2 : m ≤ ⌈(m : ℚ) * (2 : ℚ) ^ e⌉ := by
        have := Int.ceil_le_ceil hle
        rwa [Int.ceil_intCast] at this
      have h3 : ⌈(m : ℚ) * (2 : ℚ) ^ e⌉ ≤ 0 := Int.ceil_le.mpr (by push_cast; exact h0.le)
      omega

theorem trunc_int (n : Int) : (if (0 : ℚ) ≤ (n : ℚ) then ⌊(n : ℚ)⌋ else ⌈(n : ℚ)⌉) = n := by
  rw [Int.floor_intCast, Int.ceil_intCast, ite_self]

/-- An integer that is a double is not changed by the conversion to a double. -/
theorem intToF64_of_isFloat {n : Int} (hn : n.natAbs < 2 ^ 65) (h : IsFloat 53 (-1074) 971 (n : ℚ)) : intToF64 n = n := by
  have h1 := intToF64_round hn
  rw [roundBin_exact h] at h1
  injection h1 with h2
  exact (Int.cast_injective (α := ℚ) h2).symm

/-- Writing a double into an int64 array, reading it as a double and converting to i64 gives the element. -/
theorem fltToInt_again {x : Flt ℚ} (h : IsFlt 53 (-1074) 971 x) :
    fltToInt (-2 ^ 63) (2 ^ 63 - 1) (.num (intToF64 (fltToInt (-2 ^ 63) (2 ^ 63 - 1) x))) = fltToInt (-2 ^ 63) (2 ^ 63 - 1) x := by
  cases x with
  | nan => decide +kernel
  | negInf => decide +kernel
  | posInf => decide +kernel
  | num q =>
    have ht := isFloat_trunc (q := q) h
    unfold fltToInt
    dsimp only
    generalize (if 0 ≤ q then ⌊q⌋ else ⌈q⌉ : Int) = t at ht
    rw [trunc_int]
    by_cases h1 : t < -2 ^ 63
    · rw [show max (-2 ^ 63) (min (2 ^ 63 - 1) t) = (-2 ^ 63 : Int) by omega]
      decide +kernel
    · by_cases h2 : 2 ^ 63 - 1 < t
      · rw [show max (-2 ^ 63) (min (2 ^ 63 - 1) t) = (2 ^ 63 - 1 : Int) by omega]
        decide +kernel
      · rw [show max (-2 ^ 63) (min (2 ^ 63 - 1) t) = t by omega, intToF64_of_isFloat (by omega) ht]
        omega

end Rumpy
