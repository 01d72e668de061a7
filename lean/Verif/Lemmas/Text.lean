import Verif.Model.Text
import Mathlib.Data.Nat.Digits.Defs
/-!
# Lemmas: decimal numbers as text
-/

namespace Rumpy

theorem showNat_digits (n : Nat) : ∀ c ∈ showNat n, c.isDigit = true := fun c hc =>
  Nat.isDigit_of_mem_toDigits (by decide) (by decide) hc

theorem showNat_ne_nil (n : Nat) : showNat n ≠ [] := by
  unfold showNat
  rw [Nat.toDigits_eq_if (by decide)]
  split <;> simp

theorem showNatPad_digits (w n : Nat) : ∀ c ∈ showNatPad w n, c.isDigit = true := by
  intro c hc
  unfold showNatPad at hc
  rcases List.mem_append.1 hc with h | h
  · rw [List.mem_replicate] at h
    rw [h.2]; decide
  · exact showNat_digits n c h

theorem showNatPad_ne_nil (w n : Nat) : showNatPad w n ≠ [] := by
  unfold showNatPad
  simp [showNat_ne_nil]

theorem ofDigitChars_zeros (k : Nat) (l : List Char) :
    Nat.ofDigitChars 10 (List.replicate k '0' ++ l) 0 = Nat.ofDigitChars 10 l 0 := by
  induction k with
  | zero => rfl
  | succ k ih =>
    rw [List.replicate_succ, List.cons_append]
    unfold Nat.ofDigitChars at ih ⊢
    rw [List.foldl_cons]
    exact ih

theorem parseDigits_showNatPad (w n : Nat) : parseDigits (showNatPad w n) = some n := by
  unfold parseDigits
  have h1 : (showNatPad w n).isEmpty = false := by
    have := showNatPad_ne_nil w n
    cases h : showNatPad w n with
    | nil => exact absurd h this
    | cons _ _ => rfl
  have h2 : (showNatPad w n).all Char.isDigit = true := List.all_eq_true.2 (showNatPad_digits w n)
  rw [h1, h2]
  simp only [Bool.not_true, Bool.or_self, Bool.false_eq_true, if_false]
  congr 1
  unfold showNatPad
  rw [ofDigitChars_zeros]
  exact Nat.ofDigitChars_toDigits (by decide) (by decide)

theorem showNatPad_zero (n : Nat) : showNatPad 0 n = showNat n := by simp [showNatPad]

theorem parseDigits_showNat (n : Nat) : parseDigits (showNat n) = some n := by
  rw [← showNatPad_zero]; exact parseDigits_showNatPad 0 n

theorem head_not_sign {l : List Char} (h : ∀ c ∈ l, c.isDigit = true) :
    (∀ r, l ≠ '+' :: r) ∧ ∀ r, l ≠ '-' :: r := by
  constructor
  · rintro r rfl
    exact absurd (h '+' (by simp)) (by decide)
  · rintro r rfl
    exact absurd (h '-' (by simp)) (by decide)

theorem parseUsize_digits {l : List Char} (h : ∀ c ∈ l, c.isDigit = true) {n : Nat} (hp : parseDigits l = some n)
    (hn : n < 2 ^ 64) : parseUsize l = some n := by
  unfold parseUsize
  obtain ⟨h1, _⟩ := head_not_sign h
  split
  · exact absurd rfl (h1 _)
  · dsimp only
    rw [hp]
    simp only [if_pos hn]

theorem parseI64_digits {l : List Char} (h : ∀ c ∈ l, c.isDigit = true) {n : Nat} (hp : parseDigits l = some n)
    (hn : n < 2 ^ 63) : parseI64 l = some (n : Int) := by
  unfold parseI64
  obtain ⟨h1, h2⟩ := head_not_sign h
  split
  · rename_i r
    exact absurd rfl (h2 r)
  · rename_i r
    exact absurd rfl (h1 r)
  · rw [hp]
    simp only [if_pos hn]

/-- A printed 64-bit integer is read back. -/
theorem parseI64_showIntPad (w : Nat) (z : Int) (h1 : -2 ^ 63 ≤ z) (h2 : z < 2 ^ 63) :
    parseI64 (showIntPad w z) = some z := by
  unfold showIntPad
  split
  · rename_i h
    unfold parseI64
    simp only [parseDigits_showNatPad]
    rw [if_pos (by omega)]
    congr 1
    omega
  · rename_i h
    rw [parseI64_digits (showNatPad_digits _ _) (parseDigits_showNatPad _ _) (by omega)]
    congr 1
    omega

theorem showInt_eq (z : Int) : showInt z = showIntPad 0 z := by
  unfold showInt showIntPad
  simp [showNatPad_zero]

theorem parseI64_showInt (z : Int) (h1 : -2 ^ 63 ≤ z) (h2 : z < 2 ^ 63) : parseI64 (showInt z) = some z := by
  rw [showInt_eq]; exact parseI64_showIntPad 0 z h1 h2

end Rumpy
