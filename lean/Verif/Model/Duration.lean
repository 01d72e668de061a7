import Verif.Model.Calendar
/-!
# Model: durations as text (src/array/dtype/datetime64.rs)
-/

namespace Rumpy
open Spec

/-- The names of src/array/dtype/datetime64.rs:527-538. -/
def unitPlural : TimeUnit → String
  | .Y => "years"
  | .M => "months"
  | .W => "weeks"
  | .D => "days"
  | .h => "hours"
  | .m => "minutes"
  | .s => "seconds"
  | .ms => "milliseconds"
  | .us => "microseconds"
  | .ns => "nanoseconds"

/-- The names of src/array/dtype/datetime64.rs:541-552. -/
def unitSingular : TimeUnit → String
  | .Y => "year"
  | .M => "month"
  | .W => "week"
  | .D => "day"
  | .h => "hour"
  | .m => "minute"
  | .s => "second"
  | .ms => "millisecond"
  | .us => "microsecond"
  | .ns => "nanosecond"

/-- `format_timedelta64`, src/array/dtype/datetime64.rs:526-557. -/
def formatTimedelta (value : Int) (unit : TimeUnit) : List Char :=
  if value = 1 ∨ value = -1 then showInt value ++ ' ' :: (unitSingular unit).toList
  else showInt value ++ ' ' :: (unitPlural unit).toList

/-- `format_element` of a duration, src/array/dtype/datetime64.rs:400-406. -/
def formatDuration (unit : TimeUnit) (value : Int) : List Char :=
  if value = NaT then "NaT".toList else formatTimedelta value unit

end Rumpy
