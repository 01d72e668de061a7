import Verif.Spec.DType
/-!
# Specification: the Gregorian calendar and instants of time
-/

namespace Spec

/-- A date of the (proleptic) Gregorian calendar. -/
structure Date where
  year : Int
  month : Int
  day : Int
deriving DecidableEq, Repr

/-- Leap years: divisible by 4, but centuries only when divisible by 400. -/
def Leap (y : Int) : Prop := y % 4 = 0 ∧ (y % 100 ≠ 0 ∨ y % 400 = 0)

instance : DecidablePred Leap := fun y => by unfold Leap; infer_instance

/-- Length of a month. -/
def daysInMonth (y m : Int) : Int :=
  if m = 2 then (if Leap y then 29 else 28)
  else if m = 4 ∨ m = 6 ∨ m = 9 ∨ m = 11 then 30 else 31

/-- Dates that exist. -/
def Date.Valid (d : Date) : Prop :=
  1 ≤ d.month ∧ d.month ≤ 12 ∧ 1 ≤ d.day ∧ d.day ≤ daysInMonth d.year d.month

instance : DecidablePred Date.Valid := fun d => by unfold Date.Valid; infer_instance

/-- The day after. -/
def Date.next (d : Date) : Date :=
  if d.day < daysInMonth d.year d.month then ⟨d.year, d.month, d.day + 1⟩
  else if d.month < 12 then ⟨d.year, d.month + 1, 1⟩
  else ⟨d.year + 1, 1, 1⟩

/-- Day `n` counted from 1970-01-01 is the date `d`: counting forward and backward one day at a
time. -/
inductive DayNumber : Int → Date → Prop
  | epoch : DayNumber 0 ⟨1970, 1, 1⟩
  | forward {n d} : DayNumber n d → DayNumber (n + 1) d.next
  | backward {n d} : DayNumber n d.next → d.Valid → DayNumber (n - 1) d

/-- Length in nanoseconds of the units that have a fixed length. -/
def nanos : TimeUnit → Option Int
  | .Y | .M => none
  | .W => some 604800000000000
  | .D => some 86400000000000
  | .h => some 3600000000000
  | .m => some 60000000000
  | .s => some 1000000000
  | .ms => some 1000000
  | .us => some 1000
  | .ns => some 1

/-- Period number `v` of unit `u` (counted from 1970) begins `t` nanoseconds after the start of
1970. -/
def Starts : TimeUnit → Int → Int → Prop
  | .Y, v, t => ∃ n, DayNumber n ⟨1970 + v, 1, 1⟩ ∧ t = n * 86400000000000
  | .M, v, t => ∃ n, DayNumber n ⟨1970 + v / 12, 1 + v % 12, 1⟩ ∧ t = n * 86400000000000
  | u, v, t => ∃ k, nanos u = some k ∧ t = v * k

/-- Period `r` of unit `w` is the one in which period `v` of unit `u` begins. -/
def FloorsTo (u : TimeUnit) (v : Int) (w : TimeUnit) (r : Int) : Prop :=
  ∃ t a b, Starts u v t ∧ Starts w r a ∧ Starts w (r + 1) b ∧ a ≤ t ∧ t < b

/-- Day of the week, 0 for Monday: 1970-01-01 was a Thursday and the days follow each other. -/
def weekday (n : Int) : Int := (n + 3) % 7

end Spec
