import Verif.Spec.Cast
/-!
# Specification: binary floating-point numbers and their bit patterns (IEEE 754)
-/

namespace Spec

/-- A binary interchange format: the number of exponent bits and of fraction bits. -/
structure BinFormat where
  e : Nat
  f : Nat

/-- `float64`. -/
def binary64 : BinFormat := ⟨11, 52⟩

/-- `float32`. -/
def binary32 : BinFormat := ⟨8, 23⟩

namespace BinFormat

/-- The formats considered: the exponent range is large enough for the fraction. -/
def Wide (F : BinFormat) : Prop := 3 ≤ F.e ∧ 1 ≤ F.f ∧ F.f + 3 ≤ 2 ^ F.e

/-- The exponent bias. -/
def bias (F : BinFormat) : Nat := 2 ^ (F.e - 1) - 1

/-- The bit pattern, read as a number, has as many bits as the format. -/
def Pattern (F : BinFormat) (b : Nat) : Prop := b < 2 ^ (1 + F.e + F.f)

/-- The sign bit. -/
def sign (F : BinFormat) (b : Nat) : Nat := b / 2 ^ (F.e + F.f)

/-- The exponent bits. -/
def expo (F : BinFormat) (b : Nat) : Nat := b / 2 ^ F.f % 2 ^ F.e

/-- The fraction bits. -/
def frac (F : BinFormat) (b : Nat) : Nat := b % 2 ^ F.f

/-- The exponent of the last bit. -/
def lastExp (F : BinFormat) (b : Nat) : Int := max 1 (F.expo b : Int) - F.bias - F.f

/-- The significand: with a hidden bit unless the number is subnormal. -/
def significand (F : BinFormat) (b : Nat) : Nat := if F.expo b = 0 then F.frac b else 2 ^ F.f + F.frac b

/-- The value of a bit pattern. -/
def value (F : BinFormat) (b : Nat) : Flt ℚ :=
  if F.expo b = 2 ^ F.e - 1 then
    if F.frac b ≠ 0 then .nan else if F.sign b = 0 then .posInf else .negInf
  else .num ((if F.sign b = 0 then 1 else -1) * F.significand b * (2 : ℚ) ^ F.lastExp b)

/-- The significant bits, the smallest and the largest exponent of the last bit. -/
def precision (F : BinFormat) : Nat := F.f + 1
def minExp (F : BinFormat) : Int := 1 - F.bias - F.f
def maxExp (F : BinFormat) : Int := 2 ^ F.e - 2 - F.bias - F.f

end BinFormat

/-- `d` is the distance from the number `q` to the next larger number of the format. -/
def IsSpacing (F : BinFormat) (q d : ℚ) : Prop :=
  0 < d ∧ (∃ c, F.Pattern c ∧ F.value c = .num (q + d)) ∧ ∀ c r, F.Pattern c → F.value c = .num r → ¬(q < r ∧ r < q + d)

/-- The product of the number `q` with `2^i`, rounded once to the format. -/
def IsLdexp (p : Nat) (lo hi : Int) (q : ℚ) (i : Int) (y : Flt ℚ) : Prop := IsRounding p lo hi (.num (q * 2 ^ i)) y

/-- `heaviside` of NumPy: 0 below zero, `h0` at zero, 1 above, and NaN for NaN. -/
def heavisideSpec (x h0 : Flt ℚ) : Flt ℚ :=
  match x with
  | .nan => .nan
  | .negInf => .num 0
  | .posInf => .num 1
  | .num q => if q < 0 then .num 0 else if q = 0 then h0 else .num 1

end Spec
