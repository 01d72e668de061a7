import Mathlib.Algebra.Order.Field.Rat
import Verif.Spec.Nd
/-!
# Specification: what a printed array says

A printed array is read the way one reads a nested Python list: brackets, and words between blanks
and commas.  `nested` is the list of words and brackets an array should show; `page` is the exact
layout: elements aligned to the right, one row per line, a blank line between larger blocks.
-/

namespace Spec

/-- What a reader sees: a bracket or a word. -/
inductive Token
  | open
  | close
  | word (text : List Char)
deriving DecidableEq, Repr

/-- Characters that only separate words. -/
def isBlank (c : Char) : Bool := c = ' ' || c = ',' || c = '\n'

/-- Characters that end a word. -/
def endsWord (c : Char) : Bool := isBlank c || c = '[' || c = ']'

/-- The word read so far, if any. -/
def wordOf (w : List Char) : List Token := if w = [] then [] else [.word w]

/-- Reading a text from left to right; `w` is the unfinished word. -/
def readTokens (w : List Char) : List Char → List Token
  | [] => wordOf w
  | c :: cs =>
    if c = '[' then wordOf w ++ .open :: readTokens [] cs
    else if c = ']' then wordOf w ++ .close :: readTokens [] cs
    else if isBlank c then wordOf w ++ readTokens [] cs
    else readTokens (w ++ [c]) cs

/-- The brackets and words of a text. -/
def tokens (s : List Char) : List Token := readTokens [] s

/-- A text that is read as one word. -/
def IsWord (s : List Char) : Prop := s ≠ [] ∧ ∀ c ∈ s, endsWord c = false

instance (s : List Char) : Decidable (IsWord s) := by unfold IsWord; infer_instance

/-- The positions shown along an axis of length `n`: all of them, or, when the array is abridged
and the axis is longer than six, the first three, dots, and the last three. -/
def shownAlong (abridged : Bool) (n : Nat) : List (Option Nat) :=
  if abridged ∧ 6 < n then
    [some 0, some 1, some 2, none, some (n - 3), some (n - 2), some (n - 1)]
  else (List.range n).map some

/-- The brackets and words of an array with element texts `f`; the dots are a word. -/
def nested (abridged : Bool) : List Nat → (List Nat → List Char) → List Token
  | [], f => [.word (f [])]
  | n :: s, f =>
    .open :: ((shownAlong abridged n).flatMap fun
      | none => [.word ['.', '.', '.']]
      | some i => nested abridged s fun idx => f (i :: idx)) ++ [.close]

/-- The indices shown. -/
def shownIndices (abridged : Bool) : List Nat → List (List Nat)
  | [] => [[]]
  | n :: s => (shownAlong abridged n).flatMap fun
      | none => []
      | some i => (shownIndices abridged s).map fun idx => i :: idx

/-- A text moved to the right end of a field. -/
def alignRight (width : Nat) (s : List Char) : List Char := List.replicate (width - s.length) ' ' ++ s

/-- What stands between two parts of an axis that is followed by the axes `rest`: a space between
elements, a line break between rows, a blank line between larger blocks. -/
def gapBefore (comma : List Char) (indent : Nat) : (rest : List Nat) → List Char
  | [] => comma ++ [' ']
  | [_] => comma ++ '\n' :: List.replicate indent ' '
  | _ :: _ :: _ => comma ++ '\n' :: '\n' :: List.replicate indent ' '

/-- The exact layout.  `comma` is the mark after an element and `indent` the column of the opening
bracket of the part being printed. -/
def page (abridged : Bool) (comma : List Char) (width : Nat) : (indent : Nat) → List Nat → (List Nat → List Char) → List Char
  | _, [], f => alignRight width (f [])
  | indent, n :: s, f =>
    let items := (shownAlong abridged n).map fun
      | none => ['.', '.', '.']
      | some i => page abridged comma width (indent + 1) s fun idx => f (i :: idx)
    '[' :: (gapBefore comma indent s).intercalate items ++ [']']

/-- A tuple of numbers as Python prints it: a tuple of one has a comma. -/
def tupleText (s : List Nat) : List Char :=
  '(' :: [',', ' '].intercalate (s.map (Nat.toDigits 10)) ++ (if s.length = 1 then [','] else []) ++ [')']

/-- The number written by digits. -/
def digitsValue (l : List Char) : Option ℚ :=
  if l.all Char.isDigit then some (l.foldl (fun n c => 10 * n + ((c.toNat : ℚ) - 48)) 0) else none

/-- The number written by digits and, optionally, a point and more digits. -/
def unsignedValue (l : List Char) : Option ℚ :=
  let whole := l.takeWhile (· ≠ '.')
  let fraction := (l.dropWhile (· ≠ '.')).drop 1
  if whole = [] then none else
    (digitsValue whole).bind fun a => (digitsValue fraction).map fun b => a + b / 10 ^ fraction.length

/-- The number written by a text: an optional minus sign, then an unsigned number.  `none` for any
other text. -/
def decimalValue (s : List Char) : Option ℚ :=
  match s with
  | '-' :: r => (unsignedValue r).map fun x => -x
  | s => unsignedValue s

end Spec
