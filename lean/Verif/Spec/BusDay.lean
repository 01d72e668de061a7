import Verif.Spec.Time
/-!
# Specification: weekmasks
-/

namespace Spec

/-- The short name of a weekday, in lower case; Monday is 0. -/
def dayName : Nat → List Char
  | 0 => ['m', 'o', 'n']
  | 1 => ['t', 'u', 'e']
  | 2 => ['w', 'e', 'd']
  | 3 => ['t', 'h', 'u']
  | 4 => ['f', 'r', 'i']
  | 5 => ['s', 'a', 't']
  | _ => ['s', 'u', 'n']

/-- A text of names of weekdays in upper or lower case, with or without spaces between them, and the weekdays. -/
inductive DayText : List Nat → List Char → Prop
  | nil : DayText [] []
  | space {ds s} : DayText ds s → DayText ds (' ' :: s)
  | day {d ds w s} : d < 7 → w.map Char.toLower = dayName d → DayText ds s → DayText (d :: ds) (w ++ s)

/-- The marks of a list of weekdays. -/
def markDays (ds : List Nat) : List Bool := (List.range 7).map fun d => decide (d ∈ ds)

end Spec
