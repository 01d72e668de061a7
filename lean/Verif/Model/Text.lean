/-!
# Model: decimal numbers as text (Rust's `parse::<usize>()`, `parse::<i64>()`, `{}` and `{:0w}`)

Strings are lists of characters.
-/

namespace Rumpy

/-- Digits only, at least one. -/
def parseDigits (l : List Char) : Option Nat :=
  if l.isEmpty || !l.all Char.isDigit then none else some (Nat.ofDigitChars 10 l 0)

/-- `str::parse::<usize>()`: an optional plus sign, digits, no overflow. -/
def parseUsize (l : List Char) : Option Nat :=
  let ds := match l with
    | '+' :: r => r
    | _ => l
  match parseDigits ds with
  | some n => if n < 2 ^ 64 then some n else none
  | none => none

/-- `str::parse::<i64>()`. -/
def parseI64 (l : List Char) : Option Int :=
  match l with
  | '-' :: r =>
    match parseDigits r with
    | some n => if n ≤ 2 ^ 63 then some (-(n : Int)) else none
    | none => none
  | '+' :: r =>
    match parseDigits r with
    | some n => if n < 2 ^ 63 then some (n : Int) else none
    | none => none
  | _ =>
    match parseDigits l with
    | some n => if n < 2 ^ 63 then some (n : Int) else none
    | none => none

/-- `{}` of a natural number. -/
def showNat (n : Nat) : List Char := Nat.toDigits 10 n

/-- `{:0w}` of a natural number. -/
def showNatPad (w n : Nat) : List Char := List.replicate (w - (showNat n).length) '0' ++ showNat n

/-- `{}` of an integer. -/
def showInt (z : Int) : List Char := if z < 0 then '-' :: showNat z.natAbs else showNat z.natAbs

/-- `{:0w}` of an integer: the sign counts towards the width and comes first. -/
def showIntPad (w : Nat) (z : Int) : List Char :=
  if z < 0 then '-' :: showNatPad (w - 1) z.natAbs else showNatPad w z.natAbs

end Rumpy
