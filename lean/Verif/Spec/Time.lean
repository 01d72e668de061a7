import Verif.Spec.Calendar
/-!
# Specification: dates and durations as numbers, business days
-/

namespace Spec

/-- What a stored value of a unit of fixed length means, in nanoseconds; the smallest integer stands
for "not a time". -/
def timeMeaning (u : TimeUnit) (x : Int) : Option Int :=
  if x = -2 ^ 63 then none else (nanos u).map fun k => x * k

/-- Sum of two times, missing if one is missing. -/
def optAdd (a b : Option Int) : Option Int := a.bind fun x => b.map fun y => x + y

/-- Difference of two times, missing if one is missing. -/
def optSub (a b : Option Int) : Option Int := a.bind fun x => b.map fun y => x - y

/-- A day on which business is done: its weekday is marked and it is no holiday. -/
def BusinessDay (mask : List Bool) (holidays : List Int) (n : Int) : Prop :=
  mask[(weekday n).toNat]? = some true ∧ n ∉ holidays

instance (mask : List Bool) (holidays : List Int) : DecidablePred (BusinessDay mask holidays) := fun n => by
  unfold BusinessDay; infer_instance

end Spec
