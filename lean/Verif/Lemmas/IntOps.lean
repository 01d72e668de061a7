import Verif.Spec.Int
import Verif.Model.IntOps
import Verif.Lemmas.Float
import Mathlib.Data.BitVec
import Mathlib.Algebra.Ring.GeomSum
import Mathlib.Tactic.Ring
import Mathlib.Tactic.Linarith
/-!
# Lemmas: integer element operations
-/

namespace Rumpy
open Spec

theorem intValue_range (s : Bool) {w : Nat} (x : BitVec w) : InIntRange s w (intValue s x) := by
  unfold InIntRange intValue
  cases s
  · simp only [Bool.false_eq_true, if_false]
    refine ⟨by omega, ?_⟩
    have := x.isLt
    exact_mod_cast this
  · simp only [if_true]
    exact ⟨BitVec.le_toInt x, BitVec.toInt_lt⟩

theorem dvd_intValue (s : Bool) {w : Nat} (x : BitVec w) : ((2 ^ w : Nat) : Int) ∣ intValue s x - (x.toNat : Int) := by
  unfold intValue
  cases s
  · simp
  · simp only [if_true]
    rw [BitVec.toInt_eq_toNat_bmod]
    exact Int.dvd_bmod_sub_self

/-- Two numbers of a type that agree modulo `2^w` are equal. -/
theorem eq_of_dvd_range {s : Bool} {w : Nat} {x y : Int} (hx : InIntRange s w x) (hy : InIntRange s w y)
    (hd : ((2 ^ w : Nat) : Int) ∣ x - y) (hw : 0 < w) : x = y := by
  obtain ⟨k, hk⟩ := hd
  unfold InIntRange at hx hy
  push_cast at hk
  have hp : (0 : Int) < 2 ^ w := by positivity
  have hlt : -(2 : Int) ^ w < 2 ^ w * k ∧ 2 ^ w * k < 2 ^ w := by
    cases s
    · simp only [Bool.false_eq_true, if_false] at hx hy
      constructor <;> linarith [hx.1, hx.2, hy.1, hy.2]
    · simp only [if_true] at hx hy
      obtain ⟨w, rfl⟩ : ∃ v, w = v + 1 := ⟨w - 1, by omega⟩
      rw [Nat.add_sub_cancel] at hx hy
      rw [pow_succ] at *
      constructor <;> linarith [hx.1, hx.2, hy.1, hy.2]
  have : k = 0 := by
    by_contra hne
    rcases lt_or_gt_of_ne hne with h | h
    · nlinarith [hlt.1]
    · nlinarith [hlt.2]
  subst this
  omega

theorem dvd_intValue_toInt (s : Bool) {w : Nat} (x : BitVec w) :
    ((2 ^ w : Nat) : Int) ∣ intValue s x - x.toInt := by
  have h1 := dvd_intValue s x
  have h2 := dvd_intValue true x
  have h3 : intValue true x = x.toInt := rfl
  rw [h3] at h2
  have := Int.dvd_sub h1 h2
  have e : intValue s x - (x.toNat : Int) - (x.toInt - (x.toNat : Int)) = intValue s x - x.toInt := by ring
  rwa [e] at this

theorem dvd_add {s : Bool} {w : Nat} (a b : BitVec w) :
    ((2 ^ w : Nat) : Int) ∣ intValue s (a + b) - (intValue s a + intValue s b) := by
  have h1 := dvd_intValue_toInt s (a + b)
  have h2 : ((2 ^ w : Nat) : Int) ∣ (a + b).toInt - (a.toInt + b.toInt) := by
    rw [BitVec.toInt_add]; exact Int.dvd_bmod_sub_self
  have h3 := dvd_intValue_toInt s a
  have h4 := dvd_intValue_toInt s b
  have := Int.dvd_add h1 (Int.dvd_sub h2 (Int.dvd_add h3 h4))
  have e : intValue s (a + b) - (a + b).toInt + ((a + b).toInt - (a.toInt + b.toInt) -
    (intValue s a - a.toInt + (intValue s b - b.toInt))) = intValue s (a + b) - (intValue s a + intValue s b) := by ring
  rwa [e] at this

theorem dvd_sub' {s : Bool} {w : Nat} (a b : BitVec w) :
    ((2 ^ w : Nat) : Int) ∣ intValue s (a - b) - (intValue s a - intValue s b) := by
  have h1 := dvd_intValue_toInt s (a - b)
  have h2 : ((2 ^ w : Nat) : Int) ∣ (a - b).toInt - (a.toInt - b.toInt) := by
    rw [BitVec.toInt_sub]; exact Int.dvd_bmod_sub_self
  have h3 := dvd_intValue_toInt s a
  have h4 := dvd_intValue_toInt s b
  have := Int.dvd_add h1 (Int.dvd_sub h2 (Int.dvd_sub h3 h4))
  have e : intValue s (a - b) - (a - b).toInt + ((a - b).toInt - (a.toInt - b.toInt) -
    (intValue s a - a.toInt - (intValue s b - b.toInt))) = intValue s (a - b) - (intValue s a - intValue s b) := by ring
  rwa [e] at this

theorem dvd_mul' {s : Bool} {w : Nat} (a b : BitVec w) :
    ((2 ^ w : Nat) : Int) ∣ intValue s (a * b) - intValue s a * intValue s b := by
  have h1 := dvd_intValue_toInt s (a * b)
  have h2 : ((2 ^ w : Nat) : Int) ∣ (a * b).toInt - (a.toInt * b.toInt) := by
    rw [BitVec.toInt_mul]; exact Int.dvd_bmod_sub_self
  have h3 := (dvd_intValue_toInt s a).mul_right (intValue s b)
  have h4 := (dvd_intValue_toInt s b).mul_left a.toInt
  have := Int.dvd_add h1 (Int.dvd_sub h2 (Int.dvd_add h3 h4))
  have e : intValue s (a * b) - (a * b).toInt + ((a * b).toInt - (a.toInt * b.toInt) -
    ((intValue s a - a.toInt) * intValue s b + a.toInt * (intValue s b - b.toInt)))
      = intValue s (a * b) - (intValue s a * intValue s b) := by ring
  rwa [e] at this

theorem dvd_pow' {s : Bool} {w : Nat} (a : BitVec w) (n : Nat) :
    ((2 ^ w : Nat) : Int) ∣ intValue s (BitVec.ofNat w (a.toNat ^ n)) - intValue s a ^ n := by
  have h1 := dvd_intValue s (BitVec.ofNat w (a.toNat ^ n))
  rw [BitVec.toNat_ofNat] at h1
  have h2 : ((2 ^ w : Nat) : Int) ∣ ((a.toNat ^ n % 2 ^ w : Nat) : Int) - ((a.toNat ^ n : Nat) : Int) := by
    push_cast
    exact Int.dvd_emod_sub_self
  have h3 : ((2 ^ w : Nat) : Int) ∣ intValue s a ^ n - (a.toNat : Int) ^ n :=
    (dvd_intValue s a).trans (sub_dvd_pow_sub_pow _ _ _)
  have := Int.dvd_add h1 (Int.dvd_sub h2 h3)
  push_cast at this ⊢
  have e : intValue s (BitVec.ofNat w (a.toNat ^ n)) - (a.toNat : Int) ^ n % 2 ^ w +
      ((a.toNat : Int) ^ n % 2 ^ w - (a.toNat : Int) ^ n - (intValue s a ^ n - (a.toNat : Int) ^ n)) =
      intValue s (BitVec.ofNat w (a.toNat ^ n)) - intValue s a ^ n := by ring
  rwa [e] at this

/-! ### Division -/

theorem isFloorDiv_unique {a b q r q' r' : Int} (h : IsFloorDiv a b q r) (h' : IsFloorDiv a b q' r') :
    q = q' ∧ r = r' := by
  obtain ⟨h1, h2⟩ := h
  obtain ⟨h1', h2'⟩ := h'
  have e : (q - q') * b = r' - r := by linarith
  have hq : q - q' = 0 := by
    by_contra hne
    rcases lt_or_gt_of_ne hne with h | h
    · rcases h2 with h2 | h2 <;> rcases h2' with h2' | h2' <;> nlinarith
    · rcases h2 with h2 | h2 <;> rcases h2' with h2' | h2' <;> nlinarith
  have hq' : q = q' := by omega
  subst hq'
  exact ⟨rfl, by linarith⟩

theorem isFloorDiv_ediv {a b : Int} (hb : 0 < b) : IsFloorDiv a b (a / b) (a % b) :=
  ⟨by rw [Int.mul_comm]; exact (Int.mul_ediv_add_emod a b).symm, .inl ⟨Int.emod_nonneg _ (by omega), Int.emod_lt_of_pos _ hb⟩⟩

theorem isFloorDiv_fdiv {a b : Int} (hb : b ≠ 0) : IsFloorDiv a b (a.fdiv b) (a.fmod b) := by
  refine ⟨by rw [Int.mul_comm]; exact (Int.mul_fdiv_add_fmod a b).symm, ?_⟩
  rcases lt_or_gt_of_ne hb with h | h
  · right
    have h1 := Int.emod_nonneg a hb
    have h2 := Int.emod_lt a hb
    rw [Int.fmod_eq_emod]
    by_cases hd : b ∣ a
    · rw [if_pos (.inr hd), Int.emod_eq_zero_of_dvd hd]; omega
    · rw [if_neg (by push Not; exact ⟨h, hd⟩)]
      have : a % b ≠ 0 := fun h0 => hd (Int.dvd_of_emod_eq_zero h0)
      omega
  · left
    rw [Int.fmod_eq_emod, if_pos (.inl (by omega))]
    have h1 := Int.emod_nonneg a hb
    have h2 := Int.emod_lt_of_pos a h
    omega

/-- Truncated division is floor division when the signs agree or there is no remainder. -/
theorem tdiv_eq_fdiv_iff {a b : Int} (hb : b ≠ 0) : a.tdiv b = a.fdiv b ↔ 0 ≤ a * b ∨ b ∣ a := by
  rw [Int.tdiv_eq_ediv, Int.fdiv_eq_ediv]
  by_cases hd : b ∣ a
  · simp [hd]
  · simp only [hd, or_false]
    have ha : a ≠ 0 := by rintro rfl; exact hd (dvd_zero _)
    rcases lt_or_gt_of_ne hb with h | h
    · rw [if_neg (show ¬ (0 ≤ b) by omega), Int.sign_eq_neg_one_of_neg h]
      rcases lt_or_gt_of_ne ha with h' | h'
      · rw [if_neg (by omega)]
        have : 0 < a * b := Int.mul_pos_of_neg_of_neg h' h
        constructor <;> intro <;> omega
      · rw [if_pos (by omega)]
        have : a * b < 0 := Int.mul_neg_of_pos_of_neg h' h
        constructor <;> intro <;> omega
    · rw [if_pos (show (0 ≤ b) by omega), Int.sign_eq_one_of_pos h]
      rcases lt_or_gt_of_ne ha with h' | h'
      · rw [if_neg (by omega)]
        have : a * b < 0 := Int.mul_neg_of_neg_of_pos h' h
        constructor <;> intro <;> omega
      · rw [if_pos (by omega)]
        have : 0 < a * b := Int.mul_pos h' h
        constructor <;> intro <;> omega

theorem ediv_eq_fdiv_iff {a b : Int} (hb : b ≠ 0) : a / b = a.fdiv b ↔ 0 < b ∨ b ∣ a := by
  rw [Int.fdiv_eq_ediv]
  split
  · rename_i h
    constructor
    · intro; rcases h with h | h
      · left; omega
      · exact .inr h
    · intro; omega
  · rename_i h
    constructor
    · intro; omega
    · rintro (h' | h')
      · exact absurd (.inl (by omega)) h
      · exact absurd (.inr h') h

theorem toInt_zero_iff {w : Nat} {b : BitVec w} : b.toInt = 0 ↔ b = 0#w := by
  constructor
  · intro h
    apply BitVec.eq_of_toInt_eq
    rw [h]; simp
  · rintro rfl; simp

/-- The quotient of two integers of a signed type other than `MIN / -1` fits. -/
theorem toInt_ediv {w : Nat} (a b : BitVec w) (hb : b ≠ 0#w) (h : ¬ (a = BitVec.intMin w ∧ b = -1#w)) :
    (BitVec.ofInt w (a.toInt / b.toInt)).toInt = a.toInt / b.toInt := by
  have hw : 0 < w := by
    by_contra hw
    have : w = 0 := by omega
    subst this
    exact hb (Subsingleton.elim _ _)
  have hb' : b.toInt ≠ 0 := fun h => hb (toInt_zero_iff.1 h)
  have h1 := BitVec.le_toInt a
  have h2 := BitVec.toInt_lt (x := a)
  have ht := BitVec.toInt_sdiv_of_ne_or_ne a b (by rw [← not_and_or]; exact h)
  have h3 := BitVec.le_toInt (a.sdiv b)
  have h4 := BitVec.toInt_lt (x := a.sdiv b)
  rw [ht] at h3 h4
  have hp : (0 : Int) < 2 ^ (w - 1) := by positivity
  have hw2 : (2 : Int) ^ w = 2 * 2 ^ (w - 1) := by
    obtain ⟨v, rfl⟩ : ∃ v, w = v + 1 := ⟨w - 1, by omega⟩
    rw [Nat.add_sub_cancel, pow_succ]; ring
  have hlo : -2 ^ (w - 1) ≤ a.toInt / b.toInt ∧ a.toInt / b.toInt < 2 ^ (w - 1) := by
    rw [Int.tdiv_eq_ediv] at h3 h4
    split at h3
    · rename_i hc; rw [if_pos hc] at h4; omega
    · rename_i hc
      rw [if_neg hc] at h4
      push Not at hc
      rcases lt_or_gt_of_ne hb' with hn | hn
      · rw [Int.sign_eq_neg_one_of_neg hn] at h3 h4
        -- a < 0, b < 0, no remainder-free: quotient is at most -a / 2 + 1
        have hb2 : b.toInt ≤ -2 := by
          by_contra hc2
          have : b.toInt = -1 := by omega
          rw [this] at hc
          exact hc.2 ⟨-a.toInt, by ring⟩
        refine ⟨by omega, ?_⟩
        have hm := Int.mul_ediv_add_emod a.toInt b.toInt
        have hr := Int.emod_nonneg a.toInt hb'
        have hr2 := Int.emod_lt a.toInt hb'
        set q := a.toInt / b.toInt
        by_contra hq
        have hq' : 2 ^ (w - 1) ≤ q := by omega
        have h5 := BitVec.le_toInt b
        have h6 : a.toInt % b.toInt < -b.toInt := by omega
        have h7 : 0 ≤ (-b.toInt - 2) * (q - 1) := Int.mul_nonneg (by omega) (by omega)
        have h8 : b.toInt * q + -b.toInt > -2 ^ (w - 1) := by omega
        nlinarith
      · rw [Int.sign_eq_one_of_pos hn] at h3 h4
        have : a.toInt / b.toInt ≤ 0 := by
          have := Int.ediv_le_ediv hn (show a.toInt ≤ 0 by omega)
          simpa using this
        refine ⟨?_, by omega⟩
        have hm := Int.mul_ediv_add_emod a.toInt b.toInt
        have hr := Int.emod_lt_of_pos a.toInt hn
        have h7 : a.toInt ≤ a.toInt / b.toInt := by nlinarith [Int.emod_nonneg a.toInt hb']
        omega
  rw [BitVec.toInt_ofInt]
  apply Int.bmod_eq_of_le
  · push_cast; omega
  · push_cast; omega

/-! ### Bits -/

theorem asU32_mod (s : Bool) {w : Nat} (b : BitVec w) (hw : w ∈ [8, 16, 32, 64]) :
    (asU32 s b).toNat % w = b.toNat % w := by
  simp only [List.mem_cons, List.not_mem_nil, or_false] at hw
  have hlt := b.isLt
  unfold asU32
  cases s
  · simp only [Bool.false_eq_true, if_false, BitVec.toNat_setWidth]
    rcases hw with rfl | rfl | rfl | rfl <;> omega
  · simp only [if_true, BitVec.toNat_signExtend, BitVec.toNat_setWidth]
    rcases hw with rfl | rfl | rfl | rfl <;> split <;> omega

end Rumpy
