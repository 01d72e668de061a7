import Verif.Spec.DType
/-!
# Specification: the text of a duration
-/

namespace Spec

/-- The English name of a unit, in the plural. -/
def TimeUnit.plural : TimeUnit → List Char
  | .Y => "years".toList
  | .M => "months".toList
  | .W => "weeks".toList
  | .D => "days".toList
  | .h => "hours".toList
  | .m => "minutes".toList
  | .s => "seconds".toList
  | .ms => "milliseconds".toList
  | .us => "microseconds".toList
  | .ns => "nanoseconds".toList

/-- The unit with a name, in the singular or the plural. -/
def unitNamed (name : List Char) : Option TimeUnit :=
  [TimeUnit.Y, .M, .W, .D, .h, .m, .s, .ms, .us, .ns].find? fun u => u.plural = name ∨ u.plural.dropLast = name

/-- The integer that decimal digits write, with a minus sign or without. -/
def writtenInt (l : List Char) : Option Int :=
  match l with
  | '-' :: r => if r ≠ [] ∧ ∀ c ∈ r, c.isDigit = true then some (-(Nat.ofDigitChars 10 r 0 : Int)) else none
  | r => if r ≠ [] ∧ ∀ c ∈ r, c.isDigit = true then some (Nat.ofDigitChars 10 r 0 : Int) else none

/-- What the text of a duration says: `some none` is not a time, otherwise the number and the unit. -/
def durationOf (l : List Char) : Option (Option (Int × TimeUnit)) :=
  if l = "NaT".toList then some none
  else match writtenInt (l.takeWhile (· ≠ ' ')), unitNamed ((l.dropWhile (· ≠ ' ')).drop 1) with
    | some v, some u => some (some (v, u))
    | _, _ => none

end Spec
