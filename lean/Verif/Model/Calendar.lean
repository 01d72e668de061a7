import Verif.Spec.Calendar
import Verif.Model.Text
import Verif.Model.Float
/-!
# Model: dates and time units (src/array/dtype/datetime64.rs)

`i64` values are integers; sums, differences and products that can leave the range are wrapped
(release build).  Rust's `/` and `%` on `i64` truncate: `Int.tdiv`, `Int.tmod`.
-/

namespace Rumpy
open Spec

/-- A 64-bit result, wrapped. -/
def wrap64 (x : Int) : Int := x.bmod (2 ^ 64)

/-- src/array/dtype/datetime64.rs:97 (`NAT`). -/
def NaT : Int := -2 ^ 63

/-- src/array/dtype/datetime64.rs:567-581 (`days_to_ymd`).  Only the first sum can overflow. -/
def daysToYmd (days : Int) : Date :=
  let z := wrap64 (days + 719468)
  let era := if z ≥ 0 then z.tdiv 146097 else (z - 146096).tdiv 146097
  let doe := z - era * 146097
  let yoe := (doe - doe.tdiv 1460 + doe.tdiv 36524 - doe.tdiv 146096).tdiv 365
  let y := yoe + era * 400
  let doy := doe - (365 * yoe + yoe.tdiv 4 - yoe.tdiv 100)
  let mp := (5 * doy + 2).tdiv 153
  let d := doy - (153 * mp + 2).tdiv 5 + 1
  let m := if mp < 10 then mp + 3 else mp - 9
  let y := if m ≤ 2 then y + 1 else y
  ⟨y, m, d⟩

/-- src/array/dtype/datetime64.rs:584-593 (`ymd_to_days`). -/
def ymdToDays (year month day : Int) : Int :=
  let y := if month ≤ 2 then wrap64 (year - 1) else year
  let m := if month ≤ 2 then wrap64 (month + 12) else month
  let era := if y ≥ 0 then y.tdiv 400 else (wrap64 (y - 399)).tdiv 400
  let yoe := wrap64 (y - era * 400)
  let doy := (wrap64 (153 * (m - 3) + 2)).tdiv 5 + day - 1
  let doe := yoe * 365 + yoe.tdiv 4 - yoe.tdiv 100 + doy
  wrap64 (era * 146097 + doe - 719468)

/-- src/array/dtype/datetime64.rs:58-70 (`to_ns_factor`). -/
def toNsFactor : TimeUnit → Option Int
  | .Y | .M => none
  | .W => some (7 * 24 * 60 * 60 * 1000000000)
  | .D => some (24 * 60 * 60 * 1000000000)
  | .h => some (60 * 60 * 1000000000)
  | .m => some (60 * 1000000000)
  | .s => some 1000000000
  | .ms => some 1000000
  | .us => some 1000
  | .ns => some 1

/-- src/array/dtype/datetime64.rs:729-748 (`days_to_unit`). -/
def daysToUnit (days : Int) : TimeUnit → Int
  | .Y => wrap64 ((daysToYmd days).year - 1970)
  | .M => wrap64 (((daysToYmd days).year - 1970) * 12 + ((daysToYmd days).month - 1))
  | .W => days.tdiv 7
  | .D => days
  | .h => wrap64 (days * 24)
  | .m => wrap64 (days * 24 * 60)
  | .s => wrap64 (days * 86400)
  | .ms => wrap64 (days * 86400 * 1000)
  | .us => wrap64 (days * 86400 * 1000000)
  | .ns => wrap64 (days * 86400 * 1000000000)

/-- src/array/dtype/datetime64.rs:750-765 (`unit_to_days`). -/
def unitToDays (value : Int) : TimeUnit → Int
  | .Y | .M => 0
  | .W => wrap64 (value * 7)
  | .D => value
  | .h => value.tdiv 24
  | .m => value.tdiv (24 * 60)
  | .s => value.tdiv 86400
  | .ms => value.tdiv (86400 * 1000)
  | .us => value.tdiv (86400 * 1000000)
  | .ns => value.tdiv (86400 * 1000000000)

/-- src/array/dtype/datetime64.rs:675-727 (`convert_datetime64`).  The two `unwrap`s of
`to_ns_factor` cannot fail in the last case; the model reads a missing factor as 1. -/
def convertDatetime (value : Int) (u w : TimeUnit) : Int :=
  if value = NaT then NaT
  else if u = w then value
  else match u, w with
  | .Y, .M => wrap64 (value * 12)
  | .M, .Y => value.tdiv 12
  | .Y, w =>
    let year := wrap64 (1970 + value)
    daysToUnit (ymdToDays year 1 1) w
  | .M, w =>
    let total := wrap64 (1970 * 12 + value)
    let year := total.tdiv 12
    let month := total.tmod 12 + 1
    daysToUnit (ymdToDays year month 1) w
  | u, .Y => wrap64 ((daysToYmd (unitToDays value u)).year - 1970)
  | u, .M =>
    let d := daysToYmd (unitToDays value u)
    wrap64 ((d.year - 1970) * 12 + (d.month - 1))
  | u, w =>
    let f := (toNsFactor u).getD 1
    let t := (toNsFactor w).getD 1
    if f ≥ t then wrap64 (value * f.tdiv t) else value.tdiv (t.tdiv f)

/-- src/array/dtype/datetime64.rs:560-564 (`days_to_date_string`). -/
def dateString (days : Int) : List Char :=
  let d := daysToYmd days
  showIntPad 4 d.year ++ '-' :: showIntPad 2 d.month ++ '-' :: showIntPad 2 d.day

/-- src/array/dtype/datetime64.rs:453-523 (`format_datetime64`).  `div_euclid`/`rem_euclid` by a
positive number are `Int.ediv`/`Int.emod`. -/
def formatDatetime (value : Int) : TimeUnit → List Char
  | .Y => showIntPad 4 (wrap64 (1970 + value))
  | .M =>
    let total := wrap64 (1970 * 12 + value)
    showIntPad 4 (total.tdiv 12) ++ '-' :: showIntPad 2 (total.tmod 12 + 1)
  | .W => dateString (wrap64 (value * 7))
  | .D => dateString value
  | .h => dateString (value / 24) ++ 'T' :: showIntPad 2 (value % 24)
  | .m =>
    let rem := value % (24 * 60)
    dateString (value / (24 * 60)) ++ 'T' :: showIntPad 2 (rem.tdiv 60) ++ ':' :: showIntPad 2 (rem.tmod 60)
  | .s =>
    let rem := value % (24 * 60 * 60)
    dateString (value / (24 * 60 * 60)) ++ 'T' :: showIntPad 2 (rem.tdiv 3600)
      ++ ':' :: showIntPad 2 ((rem.tmod 3600).tdiv 60) ++ ':' :: showIntPad 2 (rem.tmod 60)
  | .ms =>
    let rem := value % (24 * 60 * 60 * 1000)
    dateString (value / (24 * 60 * 60 * 1000)) ++ 'T' :: showIntPad 2 (rem.tdiv 3600000)
      ++ ':' :: showIntPad 2 ((rem.tmod 3600000).tdiv 60000)
      ++ ':' :: showIntPad 2 ((rem.tmod 60000).tdiv 1000) ++ '.' :: showIntPad 3 (rem.tmod 1000)
  | .us =>
    let rem := value % (24 * 60 * 60 * 1000000)
    dateString (value / (24 * 60 * 60 * 1000000)) ++ 'T' :: showIntPad 2 (rem.tdiv 3600000000)
      ++ ':' :: showIntPad 2 ((rem.tmod 3600000000).tdiv 60000000)
      ++ ':' :: showIntPad 2 ((rem.tmod 60000000).tdiv 1000000) ++ '.' :: showIntPad 6 (rem.tmod 1000000)
  | .ns =>
    let rem := value % (24 * 60 * 60 * 1000000000)
    dateString (value / (24 * 60 * 60 * 1000000000)) ++ 'T' :: showIntPad 2 (rem.tdiv 3600000000000)
      ++ ':' :: showIntPad 2 ((rem.tmod 3600000000000).tdiv 60000000000)
      ++ ':' :: showIntPad 2 ((rem.tmod 60000000000).tdiv 1000000000)
      ++ '.' :: showIntPad 9 (rem.tmod 1000000000)

/-- `str::split(c)`. -/
def splitOn (c : Char) : List Char → List (List Char)
  | [] => [[]]
  | x :: xs =>
    if x = c then [] :: splitOn c xs
    else match splitOn c xs with
      | [] => [[x]]
      | p :: ps => (x :: p) :: ps

/-- The positive rational `a / b` rounded to 53 significant bits (nearest, ties to even), as
`m / 2^k` (no underflow: used for decimal fractions of at most nine digits). -/
def ratToF64 (a b : Nat) : Nat × Nat :=
  if a = 0 then (0, 0)
  else
    let k := 53 + b.log2 - a.log2
    -- one bit less when the quotient already has 54 bits
    let k := if 2 ^ 53 ≤ a * 2 ^ k / b then k - 1 else k
    let q := a * 2 ^ k / b
    let r := a * 2 ^ k % b
    let m := if 2 * r > b ∨ (2 * r = b ∧ q % 2 = 1) then q + 1 else q
    (m, k)

/-- `(frac * 10^p) as i64` for the `f64` nearest to `0.ds` (src/array/dtype/datetime64.rs:631-646,
661).  Text other than digits is read as 0.0 (`parse::<f64>` also accepts exponents: not
modelled). -/
def fracTicks (p : Nat) (ds : List Char) : Int :=
  match parseDigits ds with
  | none => 0
  | some n =>
    let (m, k) := ratToF64 n (10 ^ ds.length)
    ((natToF64 (m * 10 ^ p) / 2 ^ k : Nat) : Int)

/-- Text before and after the first dot. -/
def splitDot : List Char → Option (List Char × List Char)
  | [] => none
  | x :: xs => if x = '.' then some ([], xs) else (splitDot xs).map fun p => (x :: p.1, p.2)

/-- src/array/dtype/datetime64.rs:652-671 (`parse_time_part`): hours, minutes, seconds and the
digits of the fraction. -/
def parseTime (s : List Char) : Int × Int × Int × List Char :=
  let parts := splitOn ':' s
  let hours := ((parts[0]?).bind parseI64).getD 0
  let minutes := ((parts[1]?).bind parseI64).getD 0
  match parts[2]? with
  | some sec =>
    match splitDot sec with
    | some (a, b) => (hours, minutes, (parseI64 a).getD 0, b)
    | none => (hours, minutes, (parseI64 sec).getD 0, [])
  | none => (hours, minutes, 0, [])

/-- src/array/dtype/datetime64.rs:597-649 (`parse_datetime64`). -/
def parseDatetime (s : List Char) (u : TimeUnit) : Int :=
  if s = "NaT".toList ∨ s = "nat".toList then NaT
  else
    let parts := splitOn 'T' s
    let date := splitOn '-' (parts.headD [])
    match (date[0]?).bind parseI64 with
    | none => NaT
    | some year =>
      let month := ((date[1]?).bind parseI64).getD 1
      let day := ((date[2]?).bind parseI64).getD 1
      let days := ymdToDays year month day
      let (h, mi, sec, frac) := match parts[1]? with
        | some t => parseTime t
        | none => (0, 0, 0, [])
      let secs := days * 86400 + h * 3600 + mi * 60 + sec
      match u with
      | .Y => wrap64 (year - 1970)
      | .M => wrap64 ((year - 1970) * 12 + (month - 1))
      | .W => days.tdiv 7
      | .D => days
      | .h => wrap64 (days * 24 + h)
      | .m => wrap64 (days * 24 * 60 + h * 60 + mi)
      | .s => wrap64 secs
      | .ms => wrap64 (secs * 1000 + fracTicks 3 frac)
      | .us => wrap64 (secs * 1000000 + fracTicks 6 frac)
      | .ns => wrap64 (secs * 1000000000 + fracTicks 9 frac)

/-- src/python/datetime.rs:60-98 (`datetime_as_string`), one element. -/
def datetimeAsString (value : Int) (u w : TimeUnit) : List Char :=
  let v := if u ≠ w then convertDatetime value u w else value
  if v = NaT then "NaT".toList else formatDatetime v w

/-- src/python/datetime.rs:122-127 (`BusDayCalendar`). -/
structure BusCal where
  weekmask : List Bool
  holidays : List Int

/-- src/python/datetime.rs:246-260 (`is_business_day`). -/
def isBusinessDay (days : Int) (cal : BusCal) : Bool :=
  if days = NaT then false
  else if cal.holidays.contains days then false
  else cal.weekmask.getD ((days.tmod 7 + 7 + 3).tmod 7).toNat false

/-- The loop of `busday_offset_single` (src/python/datetime.rs:310-315), with fuel. -/
def busdayLoop (cal : BusCal) (step : Int) : Nat → Nat → Int → Option Int
  | _, 0, cur => some cur
  | 0, _ + 1, _ => none
  | fuel + 1, rem + 1, cur =>
    let cur := cur + step
    if isBusinessDay cur cal then busdayLoop cal step fuel rem cur
    else busdayLoop cal step fuel (rem + 1) cur

/-- src/python/datetime.rs:298-318 (`busday_offset_single`). -/
def busdayOffset (fuel : Nat) (date offset : Int) (cal : BusCal) : Option Int :=
  if date = NaT then some NaT
  else busdayLoop cal (if offset ≥ 0 then 1 else -1) fuel offset.natAbs date

/-- src/python/datetime.rs:344-360 (`busday_count_single`). -/
def busdayCount (begin_ end_ : Int) (cal : BusCal) : Int :=
  if begin_ = NaT ∨ end_ = NaT then 0
  else if begin_ ≥ end_ then 0
  else
    (List.range (end_ - begin_).toNat).foldl
      (fun count (i : Nat) => if isBusinessDay (begin_ + i) cal then count + 1 else count) 0

end Rumpy
