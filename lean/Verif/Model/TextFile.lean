import Verif.Spec.TextTable
import Verif.Model.Array
import Verif.Model.Io
import Verif.Model.Calendar
/-!
# Model: text files (src/ops/io.rs)

A file is a list of characters. How a float is printed and read is not modelled: `fmt : α → List Char` and
`parse : List Char → Option α` stand for `format!` and `str::parse`.
-/

namespace Rumpy
open Spec

/-- `str::split` with a non-empty pattern; the first argument counts the characters of a match still to be skipped. -/
def splitGo (sep : List Char) : Nat → List Char → List (List Char)
  | _, [] => [[]]
  | k + 1, _ :: s => splitGo sep k s
  | 0, c :: s =>
    if sep.isPrefixOf (c :: s) then [] :: splitGo sep (sep.length - 1) s
    else
      match splitGo sep 0 s with
      | [] => [[c]]
      | p :: ps => (c :: p) :: ps

/-- `str::split(sep)`. -/
def splitStr (sep s : List Char) : List (List Char) := splitGo sep 0 s

/-- The pieces between single whitespace characters. -/
def splitSpaces : List Char → List (List Char)
  | [] => [[]]
  | c :: s =>
    if isSpaceChar c then [] :: splitSpaces s
    else
      match splitSpaces s with
      | [] => [[c]]
      | p :: ps => (c :: p) :: ps

/-- `str::split_whitespace`. -/
def splitWhitespace (s : List Char) : List (List Char) := (splitSpaces s).filter fun p => !p.isEmpty

/-- A carriage return at the end of a line is dropped. -/
def stripCr (l : List Char) : List Char := if l.getLast? = some '\r' then l.dropLast else l

/-- `BufRead::lines` and `str::lines`. -/
def fileLines (s : List Char) : List (List Char) :=
  let ps := splitOn '\n' s
  ps.dropLast.map stripCr ++ ps.getLast?.toList.filter fun l => !l.isEmpty

/-! ### loadtxt and genfromtxt -/

/-- The lines that are used, src/ops/io.rs:44-49 and 300-305. -/
def isDataLine (comments line : List Char) : Bool :=
  let trimmed := trimStr line
  !(trimmed.isEmpty || (!comments.isEmpty && comments.isPrefixOf trimmed))

/-- The fields of a line, src/ops/io.rs:52-56 and 308-312. -/
def fieldsOf (delimiter line : List Char) : List (List Char) :=
  let trimmed := trimStr line
  if delimiter.isEmpty then splitWhitespace trimmed else (splitStr delimiter trimmed).map trimStr

/-- `usecols`, src/ops/io.rs:59-65 and 315-321. -/
def selectCols (usecols : Option (List Nat)) (values : List τ) : List τ :=
  match usecols with
  | some cols => cols.filterMap fun i => values[i]?
  | none => values

/-- The variables of the loop, src/ops/io.rs:25-27. -/
structure TableAcc (α : Type) where
  data : List α
  ncols : Option Nat
  nrows : Nat

/-- One row, src/ops/io.rs:68-89 and 324-348: the number of columns is checked, then the fields are read. -/
def takeRow (cell : τ → Option α) (acc : TableAcc α) (selected : List τ) : Option (TableAcc α) :=
  if acc.ncols.getD selected.length ≠ selected.length then none
  else (selected.mapM cell).map fun vals => ⟨acc.data ++ vals, some selected.length, acc.nrows + 1⟩

/-- The loop of `loadtxt`, src/ops/io.rs:30-90, without `last`, and of `genfromtxt`, 282-349, with `last` the number
of the first line of the footer. -/
def tableLoop (cell : List Char → Option α) (comments delimiter : List Char) (usecols : Option (List Nat)) (skip : Nat)
    (last max : Option Nat) : List (List Char) → Nat → TableAcc α → Option (TableAcc α)
  | [], _, acc => some acc
  | line :: lines, num, acc =>
    if num < skip then tableLoop cell comments delimiter usecols skip last max lines (num + 1) acc
    else if last.any (num ≥ ·) then some acc
    else if max.any (acc.nrows ≥ ·) then some acc
    else if isDataLine comments line then
      match takeRow cell acc (selectCols usecols (fieldsOf delimiter line)) with
      | none => none
      | some acc => tableLoop cell comments delimiter usecols skip last max lines (num + 1) acc
    else tableLoop cell comments delimiter usecols skip last max lines (num + 1) acc

/-- The array, src/ops/io.rs:92-103 and 351-362. -/
def tableArr (acc : TableAcc α) : Arr α :=
  if acc.nrows = 0 then ⟨[0, 0], []⟩
  else
    let ncols := acc.ncols.getD 0
    ⟨if ncols = 1 then [acc.nrows] else [acc.nrows, ncols], acc.data⟩

/-- `loadtxt`, src/ops/io.rs:13-104, on the text of the file. -/
def loadtxt (parse : List Char → Option α) (comments delimiter : List Char) (skiprows : Nat) (usecols : Option (List Nat))
    (max : Option Nat) (text : List Char) : Option (Arr α) :=
  (tableLoop parse comments delimiter usecols skiprows none max (fileLines text) 0 ⟨[], none, 0⟩).map tableArr

/-- The value of a field, src/ops/io.rs:339-343. -/
def cellOr (parse : List Char → Option α) (missing : List Char) (filling : α) (s : List Char) : Option α :=
  some (if s.isEmpty || s == missing then filling else (parse s).getD filling)

/-- `genfromtxt`, src/ops/io.rs:253-363, on the text of the file. -/
def genfromtxt (parse : List Char → Option α) (comments delimiter : List Char) (skipHeader skipFooter : Nat)
    (usecols : Option (List Nat)) (missing : List Char) (filling : α) (max : Option Nat) (text : List Char) : Option (Arr α) :=
  let lines := fileLines text
  (tableLoop (cellOr parse missing filling) comments delimiter usecols skipHeader (some (lines.length - skipFooter)) max lines 0
    ⟨[], none, 0⟩).map tableArr

/-! ### savetxt -/

/-- Header and footer, src/ops/io.rs:121-133 and 195-207. -/
def commentLines (comments newline text : List Char) : List Char :=
  (fileLines text).flatMap fun line => comments ++ line ++ newline

/-- One row of fields, src/ops/io.rs:173-190: the delimiter before each field but the first. -/
def rowText (delimiter newline : List Char) (fields : List (List Char)) : List Char :=
  fields.zipIdx.flatMap (fun p => (if p.2 > 0 then delimiter else []) ++ p.1) ++ newline

/-- The body of `savetxt`, src/ops/io.rs:141-192; `elems` are the elements in the order of `iter_offsets`. -/
def bodyText (fmt : α → List Char) (delimiter newline : List Char) (shape : List Nat) (elems : List α) : List Char :=
  match shape with
  | [] => elems.flatMap fun x => fmt x ++ newline
  | [_] => elems.flatMap fun x => fmt x ++ newline
  | nrows :: rest =>
    let ncols := rest.prod
    (List.range nrows).flatMap fun row => rowText delimiter newline (((elems.drop (row * ncols)).take ncols).map fmt)

/-- `savetxt`, src/ops/io.rs:107-211: the text of the file. -/
def savetxt (fmt : α → List Char) (delimiter newline header footer comments : List Char) (a : Nd α) : List Char :=
  commentLines comments newline header ++ bodyText fmt delimiter newline a.shape a.toList ++ commentLines comments newline footer

/-! ### fromfile and tofile with a separator -/

/-- `fromfile_text`, src/ops/io.rs:767-791. -/
def fromfileText (parse : List Char → Option α) (count : Int) (sep text : List Char) : List α :=
  let values := (splitStr sep text).filterMap fun s => if (trimStr s).isEmpty then none else parse (trimStr s)
  values.take (if count < 0 then values.length else min count.toNat values.length)

/-- The text mode of `tofile`, src/ops/io.rs:810-824. -/
def tofileText (fmt : α → List Char) (sep : List Char) (a : Nd α) : List Char :=
  a.toList.zipIdx.flatMap fun p => (if p.2 > 0 then sep else []) ++ fmt p.1

/-! ### Formats -/

/-- The ways to print a number, src/ops/io.rs:214-250. -/
inductive NumFmt where
  | sci (precision : Nat)
  | fixed (precision : Nat)
  | general (precision : Nat)
  | integer
  | shortest
deriving DecidableEq, Repr

/-- The text between `%.` and the last character. -/
def fmtDigits (fmt : List Char) : Option Nat := parseUsize ((fmt.drop 2).dropLast)

/-- The choice in `format_value`, src/ops/io.rs:214-250. -/
def numFmt (fmt : List Char) : NumFmt :=
  if fmt.isEmpty || fmt == "%.18e".toList then .sci 18
  else if "%.".toList.isPrefixOf fmt && fmt.getLast? == some 'e' then
    match fmtDigits fmt with
    | some p => .sci p
    | none => .sci 18
  else if "%.".toList.isPrefixOf fmt && fmt.getLast? == some 'f' then
    match fmtDigits fmt with
    | some p => .fixed p
    | none => .shortest
  else if "%.".toList.isPrefixOf fmt && fmt.getLast? == some 'g' then
    match fmtDigits fmt with
    | some p => .general p
    | none => .shortest
  else if fmt.head? == some '%' && fmt.getLast? == some 'd' then .integer
  else .shortest

end Rumpy
