import Verif.Model.DType
import Mathlib.Algebra.Order.Field.Power
import Mathlib.Algebra.Order.Field.Rat
import Mathlib.Algebra.Ring.Int.Parity
import Mathlib.Tactic.NormNum
import Mathlib.Tactic.Ring
import Mathlib.Tactic.Push
import Mathlib.Tactic.Positivity
import Mathlib.Tactic.FieldSimp
import Mathlib.Tactic.Linarith
/-!
# Lemmas: values of dtypes
-/

namespace Rumpy
open Spec

theorem IsInt.mono {a b c d : Int} (h1 : c ≤ a) (h2 : b ≤ d) {x : ℚ} (h : IsInt a b x) : IsInt c d x := by
  obtain ⟨n, h3, h4, h5⟩ := h
  exact ⟨n, h1.trans h3, h4.trans h2, h5⟩

theorem IsFloat.mono {p q : Nat} {a b c d : Int} (hp : p ≤ q) (h1 : c ≤ a) (h2 : b ≤ d) {x : ℚ}
    (h : IsFloat p a b x) : IsFloat q c d x := by
  obtain ⟨m, e, h3, h4, h5, h6⟩ := h
  exact ⟨m, e, h3.trans_le (pow_le_pow_right₀ (by norm_num) hp), h1.trans h4, h5.trans h2, h6⟩

theorem IsInt.float {a b : Int} {p : Nat} {lo hi : Int} (ha : -2 ^ p < a) (hb : b < 2 ^ p) (hlo : lo ≤ 0) (hhi : 0 ≤ hi)
    {x : ℚ} (h : IsInt a b x) : IsFloat p lo hi x := by
  obtain ⟨n, h3, h4, h5⟩ := h
  refine ⟨n, 0, ?_, hlo, hhi, by simp [h5]⟩
  rw [abs_lt]
  constructor <;> omega

theorem isFloat_zero {p : Nat} {lo hi : Int} (hlo : lo ≤ 0) (hhi : 0 ≤ hi) : IsFloat p lo hi 0 :=
  ⟨0, 0, by simp, hlo, hhi, by simp⟩

/-- An odd integer is a float exactly when it has at most `p` bits. -/
theorem isFloat_odd {p : Nat} {lo hi n : Int} (hn : n % 2 = 1) (h : IsFloat p lo hi (n : ℚ)) : |n| < 2 ^ p := by
  obtain ⟨m, e, h1, _, _, h4⟩ := h
  rcases lt_or_ge e 0 with he | he
  · obtain ⟨k, hk⟩ := Int.eq_ofNat_of_zero_le (show 0 ≤ -e by omega)
    have : (m : ℚ) = n * 2 ^ k := by
      have e1 : (2 : ℚ) ^ e = ((2 : ℚ) ^ k)⁻¹ := by
        rw [show e = -(k : Int) by omega, zpow_neg, zpow_natCast]
      rw [h4, e1]
      field_simp
    have : m = n * 2 ^ k := by exact_mod_cast this
    refine lt_of_le_of_lt ?_ h1
    rw [this, abs_mul]
    have : (1 : Int) ≤ |2 ^ k| := by rw [abs_of_pos (by positivity)]; exact one_le_pow₀ (by norm_num)
    nlinarith [abs_nonneg n]
  · obtain ⟨k, rfl⟩ := Int.eq_ofNat_of_zero_le he
    have h5 : n = m * 2 ^ k := by
      rw [zpow_natCast] at h4
      exact_mod_cast h4
    cases k with
    | zero => simp at h5; rwa [h5]
    | succ k =>
      exfalso
      rw [pow_succ, ← mul_assoc] at h5
      omega

theorem not_isInt_half {a b : Int} : ¬ IsInt a b (1 / 2) := by
  rintro ⟨n, _, _, h⟩
  have : (1 : ℚ) = n * 2 := by rw [← h]; norm_num
  have : (1 : Int) = n * 2 := by exact_mod_cast this
  omega

theorem isInt_cast {a b n : Int} : IsInt a b (n : ℚ) ↔ a ≤ n ∧ n ≤ b := by
  constructor
  · rintro ⟨m, h1, h2, h3⟩
    have : n = m := by exact_mod_cast h3
    subst this; exact ⟨h1, h2⟩
  · rintro ⟨h1, h2⟩; exact ⟨n, h1, h2, rfl⟩

/-! ### A decision table for `Fits` -/

/-- Numeric dtypes by their parameters. -/
inductive Desc
  | int (lo hi : Int)
  | float (p : Nat) (lo hi : Int)
  | complex (p : Nat) (lo hi : Int)

def descOf : DType → Option Desc
  | .bool => some (.int 0 1)
  | .i8 => some (.int (-2 ^ 7) (2 ^ 7 - 1))
  | .i16 => some (.int (-2 ^ 15) (2 ^ 15 - 1))
  | .i32 => some (.int (-2 ^ 31) (2 ^ 31 - 1))
  | .i64 => some (.int (-2 ^ 63) (2 ^ 63 - 1))
  | .u8 => some (.int 0 (2 ^ 8 - 1))
  | .u16 => some (.int 0 (2 ^ 16 - 1))
  | .u32 => some (.int 0 (2 ^ 32 - 1))
  | .u64 => some (.int 0 (2 ^ 64 - 1))
  | .f16 => some (.float 11 (-24) 5)
  | .f32 => some (.float 24 (-149) 104)
  | .f64 => some (.float 53 (-1074) 971)
  | .c64 => some (.complex 24 (-149) 104)
  | .c128 => some (.complex 53 (-1074) 971)
  | _ => none

def HoldsD : Desc → ℚ × ℚ → Prop
  | .int lo hi, z => IsInt lo hi z.1 ∧ z.2 = 0
  | .float p lo hi, z => IsFloat p lo hi z.1 ∧ z.2 = 0
  | .complex p lo hi, z => IsFloat p lo hi z.1 ∧ IsFloat p lo hi z.2

theorem holds_iff (k : DType) (z : ℚ × ℚ) : Holds k z ↔ ∃ d, descOf k = some d ∧ HoldsD d z := by
  cases k <;> simp [Holds, descOf, HoldsD]

def fitsD : Desc → Desc → Bool
  | .int a b, .int c d => c ≤ a ∧ b ≤ d
  | .int a b, .float p lo hi => -2 ^ p < a ∧ b < 2 ^ p ∧ lo ≤ 0 ∧ 0 ≤ hi
  | .int a b, .complex p lo hi => -2 ^ p < a ∧ b < 2 ^ p ∧ lo ≤ 0 ∧ 0 ≤ hi
  | .float p a b, .float q c d => p ≤ q ∧ c ≤ a ∧ b ≤ d
  | .float p a b, .complex q c d => p ≤ q ∧ c ≤ a ∧ b ≤ d ∧ c ≤ 0 ∧ 0 ≤ d
  | .complex p a b, .complex q c d => p ≤ q ∧ c ≤ a ∧ b ≤ d
  | _, _ => false

theorem fitsD_sound {x y : Desc} (h : fitsD x y = true) (z : ℚ × ℚ) (hz : HoldsD x z) : HoldsD y z := by
  cases x <;> cases y <;> simp only [fitsD, decide_eq_true_eq, Bool.false_eq_true] at h <;> simp only [HoldsD] at hz ⊢
  · exact ⟨IsInt.mono h.1 h.2 hz.1, hz.2⟩
  · exact ⟨IsInt.float h.1 h.2.1 h.2.2.1 h.2.2.2 hz.1, hz.2⟩
  · exact ⟨IsInt.float h.1 h.2.1 h.2.2.1 h.2.2.2 hz.1, by rw [hz.2]; exact isFloat_zero h.2.2.1 h.2.2.2⟩
  · exact ⟨IsFloat.mono h.1 h.2.1 h.2.2 hz.1, hz.2⟩
  · exact ⟨IsFloat.mono h.1 h.2.1 h.2.2.1 hz.1, by rw [hz.2]; exact isFloat_zero h.2.2.2.1 h.2.2.2.2⟩
  · exact ⟨IsFloat.mono h.1 h.2.1 h.2.2 hz.1, IsFloat.mono h.1 h.2.1 h.2.2 hz.2⟩

/-- Numbers that tell dtypes apart. -/
inductive Wit
  | odd (n : Int)
  | half
  | imag

def Wit.val : Wit → ℚ × ℚ
  | .odd n => (n, 0)
  | .half => (1 / 2, 0)
  | .imag => (0, 1)

def witnesses : List Wit :=
  [.half, .imag, .odd (-1), .odd 3, .odd 255, .odd 65535, .odd (2 ^ 32 - 1), .odd (2 ^ 64 - 1), .odd 2049,
    .odd (2 ^ 24 + 1), .odd (2 ^ 53 + 1)]

def holdsW : Desc → Wit → Bool
  | .int lo hi, .odd n => lo ≤ n ∧ n ≤ hi
  | .int _ _, _ => false
  | .float p _ _, .odd n => |n| < 2 ^ p
  | .float _ _ _, .half => true
  | .float _ _ _, .imag => false
  | .complex p _ _, .odd n => |n| < 2 ^ p
  | .complex _ _ _, _ => true

/-- Exponent ranges that include the last bits of `1` and `1/2`. -/
def Desc.Usual : Desc → Prop
  | .int _ _ => True
  | .float p lo hi | .complex p lo hi => 0 < p ∧ lo ≤ -1 ∧ 0 ≤ hi

theorem holdsW_iff {d : Desc} (hd : d.Usual) {w : Wit} (hw : w ∈ witnesses) : holdsW d w = true ↔ HoldsD d w.val := by
  have hodd : ∀ n, w = .odd n → n % 2 = 1 := by
    rintro n rfl
    simp only [witnesses, List.mem_cons, Wit.odd.injEq, reduceCtorEq, List.not_mem_nil, or_false, false_or] at hw
    rcases hw with h | h | h | h | h | h | h | h | h <;> subst h <;> norm_num
  have hone : ∀ {p : Nat} {lo hi : Int}, 0 < p → lo ≤ -1 → 0 ≤ hi → IsFloat p lo hi 1 ∧ IsFloat p lo hi (1 / 2) ∧ IsFloat p lo hi 0 := by
    intro p lo hi hp hlo hhi
    have : (1 : Int) < 2 ^ p := one_lt_pow₀ (by norm_num) (by omega)
    refine ⟨⟨1, 0, by simpa using this, by omega, hhi, by norm_num⟩, ⟨1, -1, by simpa using this, hlo, by omega, by norm_num⟩,
      isFloat_zero (by omega) hhi⟩
  have hfl : ∀ {p : Nat} {lo hi n : Int}, lo ≤ -1 → 0 ≤ hi → n % 2 = 1 → (|n| < 2 ^ p ↔ IsFloat p lo hi (n : ℚ)) := by
    intro p lo hi n hlo hhi hn
    exact ⟨fun h => ⟨n, 0, h, by omega, hhi, by simp⟩, isFloat_odd hn⟩
  cases d with
  | int lo hi =>
    cases w with
    | odd n => simp only [holdsW, decide_eq_true_eq, HoldsD, Wit.val, isInt_cast, and_true]
    | half => simp only [holdsW, HoldsD, Wit.val, Bool.false_eq_true, false_iff]; exact fun h => not_isInt_half h.1
    | imag => simp [holdsW, HoldsD, Wit.val]
  | float p lo hi =>
    obtain ⟨h1, h2, h3⟩ := hd
    cases w with
    | odd n =>
      simp only [holdsW, decide_eq_true_eq, HoldsD, Wit.val, and_true]
      exact hfl h2 h3 (hodd n rfl)
    | half => simp only [holdsW, HoldsD, Wit.val, true_iff, and_true]; exact (hone h1 h2 h3).2.1
    | imag => simp [holdsW, HoldsD, Wit.val]
  | complex p lo hi =>
    obtain ⟨h1, h2, h3⟩ := hd
    have h0 := hone h1 h2 h3
    cases w with
    | odd n =>
      simp only [holdsW, decide_eq_true_eq, HoldsD, Wit.val]
      rw [hfl h2 h3 (hodd n rfl)]
      exact ⟨fun h => ⟨h, h0.2.2⟩, fun h => h.1⟩
    | half => simp only [holdsW, HoldsD, Wit.val, true_iff]; exact ⟨h0.2.1, h0.2.2⟩
    | imag => simp only [holdsW, HoldsD, Wit.val, true_iff]; exact ⟨h0.2.2, h0.1⟩

theorem descOf_usual {k : DType} {d : Desc} (h : descOf k = some d) : d.Usual := by
  cases k <;> simp only [descOf, Option.some.injEq, reduceCtorEq] at h <;> subst h <;> simp [Desc.Usual]

/-- The table decides `Fits` for numeric dtypes. -/
def fitsTable (a b : DType) : Bool :=
  match descOf a, descOf b with
  | some x, some y => fitsD x y
  | _, _ => false

/-- Some witness is held by `a` and not by `b`. -/
def separated (a b : DType) : Bool :=
  match descOf a, descOf b with
  | some x, some y => witnesses.any fun w => holdsW x w && !holdsW y w
  | _, _ => false

theorem table_complete : ∀ a ∈ numericOrder, ∀ b ∈ numericOrder, (fitsTable a b || separated a b) = true := by
  decide +kernel

theorem mem_numericOrder {a : DType} (h : a.Numeric) : a ∈ numericOrder := by
  cases a <;> first | exact absurd h id | simp [numericOrder]

theorem fits_iff {a b : DType} (ha : a.Numeric) (hb : b.Numeric) : Fits a b ↔ fitsTable a b = true := by
  constructor
  · intro h
    have ht := table_complete a (mem_numericOrder ha) b (mem_numericOrder hb)
    rcases Bool.or_eq_true _ _ ▸ ht with ht | ht
    · exact ht
    · exfalso
      unfold separated at ht
      cases hx : descOf a with
      | none => rw [hx] at ht; simp at ht
      | some x =>
        cases hy : descOf b with
        | none => rw [hx, hy] at ht; simp at ht
        | some y =>
          rw [hx, hy] at ht
          simp only [List.any_eq_true, Bool.and_eq_true, Bool.not_eq_true'] at ht
          obtain ⟨w, hw, h1, h2⟩ := ht
          have h3 := (holds_iff a w.val).2 ⟨x, hx, (holdsW_iff (descOf_usual hx) hw).1 h1⟩
          obtain ⟨y', hy', h4⟩ := (holds_iff b w.val).1 (h _ h3)
          rw [hy] at hy'
          obtain rfl := Option.some.inj hy'
          rw [(holdsW_iff (descOf_usual hy) hw).2 h4] at h2
          cases h2
  · intro h z hz
    unfold fitsTable at h
    obtain ⟨x, hx, hz⟩ := (holds_iff a z).1 hz
    rw [hx] at h
    cases hy : descOf b with
    | none => rw [hy] at h; simp at h
    | some y =>
      rw [hy] at h
      exact (holds_iff b z).2 ⟨y, hy, fitsD_sound h z hz⟩

end Rumpy
