import Verif.Spec.BusDay
import Verif.Model.Calendar
import Verif.Model.Elementwise
/-!
# Model: business day calendars and functions of arrays of dates (src/python/datetime.rs)
-/

namespace Rumpy
open Spec

/-- `contains` of a text, used in src/python/datetime.rs:173-181. -/
def containsText (pat : List Char) : List Char → Bool
  | [] => pat.isPrefixOf []
  | c :: s => pat.isPrefixOf (c :: s) || containsText pat s

/-- `parse_weekmask`, src/python/datetime.rs:169-199; `lower` is the lower case of one character in Rust.  The test of the
length counts bytes; it decides only when all characters are digits. -/
def parseWeekmask (lower : Char → List Char) (mask : List Char) : Option (List Bool) :=
  let low := mask.flatMap lower
  if containsText ['m', 'o', 'n'] low || containsText ['t', 'u', 'e'] low then
    some [containsText ['m', 'o', 'n'] low, containsText ['t', 'u', 'e'] low, containsText ['w', 'e', 'd'] low,
      containsText ['t', 'h', 'u'] low, containsText ['f', 'r', 'i'] low, containsText ['s', 'a', 't'] low,
      containsText ['s', 'u', 'n'] low]
  else
    let clean := mask.filter (· ≠ ' ')
    if clean.length = 7 ∧ clean.all (fun c => c = '0' || c = '1') then some (clean.map (· = '1')) else none

/-- `BusDayCalendar::new`, src/python/datetime.rs:133-154; `none` is the ValueError. -/
def newCalendar (lower : Char → List Char) (weekmask : Option (List Char)) (holidays : Option (List (List Char))) : Option BusCal := do
  let mask ← match weekmask with
    | some m => parseWeekmask lower m
    | none => some [true, true, true, true, true, false, false]
  some ⟨mask, match holidays with
    | some h => h.map fun s => parseDatetime s .D
    | none => []⟩

/-- The loop of `isnat` and of `is_busday` for an array, src/python/datetime.rs:46-55, 229-236: the byte offset is divided by
8 and an `i64` pointer advanced by that many elements. -/
def dateLoop {β : Type} (f : Int → β) (mem : Int → Int) (v : View) (zero : β) : Arr β :=
  ⟨v.shape, writes (v.addrs.zipIdx.map fun oi => (oi.2, f (mem (v.offset + (oi.1 - v.offset).tdiv 8 * 8))))
    (List.replicate (sizeOf v.shape) zero)⟩

/-- `isnat`, src/python/datetime.rs:35-58; `none` is the TypeError. -/
def isnat (d : DType) (mem : Int → Int) (v : View) : Option (Arr Bool) :=
  match d with
  | .datetime _ | .timedelta _ => some (dateLoop (fun x => decide (x = NaT)) mem v false)
  | _ => none

/-- `is_busday` of an array, src/python/datetime.rs:227-238: the dtype is not looked at. -/
def isBusdayArray (cal : BusCal) (mem : Int → Int) (v : View) : Arr Bool := dateLoop (fun x => isBusinessDay x cal) mem v false

/-- `is_busday` of texts, src/python/datetime.rs:209-224. -/
def isBusdayTexts (cal : BusCal) (dates : List (List Char)) : List Bool :=
  dates.map fun s => isBusinessDay (parseDatetime s .D) cal

/-- `parse_dates_input`, src/python/datetime.rs:18-31: one text is a list of one. -/
def parseDates (dates : List (List Char)) : List Int := dates.map fun s => parseDatetime s .D

/-- The offsets of `busday_offset`: a number or a list. -/
inductive Offsets
  | one (n : Int)
  | many (l : List Int)

/-- The offsets as a list, src/python/datetime.rs:274-280. -/
def Offsets.list (o : Offsets) (n : Nat) : List Int :=
  match o with
  | .one k => List.replicate n k
  | .many l => l

/-- `busday_offset`, src/python/datetime.rs:265-295, up to the shape of the result; `none` when a loop does not end with the fuel. -/
def busdayOffsets (fuel : Nat) (cal : BusCal) (dates : List (List Char)) (offsets : Offsets) : Option (List Int) :=
  let ds := parseDates dates
  (ds.zip (offsets.list ds.length)).mapM fun p : Int × Int => busdayOffset fuel p.1 p.2 cal

/-- `busday_count`, src/python/datetime.rs:323-341, up to the shape of the result. -/
def busdayCounts (cal : BusCal) (begins ends : List (List Char)) : List Int :=
  ((parseDates begins).zip (parseDates ends)).map fun p : Int × Int => busdayCount p.1 p.2 cal

end Rumpy
