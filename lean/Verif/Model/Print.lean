import Mathlib.Algebra.Order.Floor.Ring
import Mathlib.Data.Rat.Floor
import Verif.Model.View
import Verif.Model.Text
/-!
# Model: printing arrays (src/array/format.rs)

`text i` stands for `format_element` at the byte address `i`: the printed form of the element, which
depends on the dtype.  Texts are lists of characters.
-/

namespace Rumpy

/-- `display_indices`, src/array/format.rs:90-104. -/
def displayIndices (dim : Nat) (truncate : Bool) (edgeitems : Nat) : List Nat × Bool :=
  if truncate && decide (2 * edgeitems < dim) then
    (List.range edgeitems ++ List.range' (dim - edgeitems) edgeitems, true)
  else (List.range dim, false)

/-- `collect_elements_recursive`, src/array/format.rs:113-144; `dims` is the shape from axis
`prefix.len()` on. -/
def collectElements (v : View) (text : Int → List Char) (truncate : Bool) (edgeitems : Nat) :
    (dims : List Nat) → (pre : List Nat) → List (List Char)
  | [], pre => [text (v.addr pre)]
  | [n], pre => (displayIndices n truncate edgeitems).1.map fun i => text (v.addr (pre ++ [i]))
  | n :: m :: dims, pre =>
    (displayIndices n truncate edgeitems).1.flatMap fun i =>
      collectElements v text truncate edgeitems (m :: dims) (pre ++ [i])

/-- `{:>w$}`: padding is counted in characters. -/
def padLeft (w : Nat) (s : List Char) : List Char := List.replicate (w - s.length) ' ' ++ s

/-- `str::len`: the number of bytes in UTF-8. -/
def byteLength (s : List Char) : Nat := (s.map Char.utf8Size).sum

/-- `sep.trim_end()`; separators end in spaces only. -/
def trimEnd (s : List Char) : List Char := (s.reverse.dropWhile (· = ' ')).reverse

/-- The parts of one axis with the dots after the first `edgeitems` parts,
src/array/format.rs:169-186. -/
def withEllipsis (edgeitems : Nat) (hasEllipsis : Bool) : (pos : Nat) → List (List Char) → List (List Char)
  | _, [] => []
  | pos, p :: ps =>
    let rest := p :: withEllipsis edgeitems hasEllipsis (pos + 1) ps
    if hasEllipsis && pos == edgeitems then ['.', '.', '.'] :: rest else rest

/-- The separator between the parts of an axis followed by `rest` more axes,
src/array/format.rs:188-199. -/
def partSep (sep : List Char) (rest depth baseIndent : Nat) : List Char :=
  if rest = 0 then sep
  else
    let indent := List.replicate (baseIndent + depth) ' '
    if rest = 1 then trimEnd sep ++ ['\n'] ++ indent
    else trimEnd sep ++ ['\n', '\n'] ++ indent

/-- `format_recursive`, src/array/format.rs:147-201. -/
def formatRecursive (v : View) (text : Int → List Char) (sep : List Char) (truncate : Bool)
    (edgeitems width baseIndent : Nat) : (dims : List Nat) → (pre : List Nat) → List Char
  | [], pre => padLeft width (text (v.addr pre))
  | n :: dims, pre =>
    let (idx, hasEllipsis) := displayIndices n truncate edgeitems
    let parts := withEllipsis edgeitems hasEllipsis 0 (idx.map fun i =>
      formatRecursive v text sep truncate edgeitems width baseIndent dims (pre ++ [i]))
    ['['] ++ (partSep sep dims.length pre.length baseIndent).intercalate parts ++ [']']

/-- `format_data`, src/array/format.rs:67-86. -/
def formatData (v : View) (text : Int → List Char) (sep : List Char) (truncate : Bool)
    (edgeitems baseIndent : Nat) : List Char :=
  if sizeOf v.shape = 0 then "[]".toList
  else
    let elements := collectElements v text truncate edgeitems v.shape []
    let maxWidth := (elements.map byteLength).foldl max 0
    formatRecursive v text sep truncate edgeitems maxWidth baseIndent v.shape []

/-- `format_str`, src/array/format.rs:57-63. -/
def formatStr (v : View) (text : Int → List Char) : List Char :=
  let truncate := decide (1000 < sizeOf v.shape)
  formatData v text [' '] truncate 3 1

/-- The dtypes whose name is left out, src/array/format.rs:16-17: int64, float64 and bool. -/
inductive ReprKind
  | plain
  | named
deriving DecidableEq

/-- The shape as a tuple, src/array/format.rs:22-34. -/
def shapeTuple : List Nat → List Char
  | [n] => ['('] ++ showNat n ++ [',', ')']
  | s => ['('] ++ [',', ' '].intercalate (s.map showNat) ++ [')']

/-- `format_repr`, src/array/format.rs:8-54. -/
def formatRepr (v : View) (text : Int → List Char) (kind : ReprKind) (dtypeName : List Char) : List Char :=
  let truncate := decide (1000 < sizeOf v.shape)
  let data := formatData v text [',', ' '] truncate 3 7
  let shapeStr := shapeTuple v.shape
  let suffix :=
    if sizeOf v.shape = 0 then ", dtype=".toList ++ dtypeName
    else if truncate && decide (kind = .named) then ", shape=".toList ++ shapeStr ++ ", dtype=".toList ++ dtypeName
    else if truncate then ", shape=".toList ++ shapeStr
    else if kind = .named then ", dtype=".toList ++ dtypeName
    else []
  "array(".toList ++ data ++ suffix ++ [')']

/-- `format_element` of integers, src/array/dtype/macros.rs:352-354 and 554-556. -/
def intText (z : Int) : List Char := showInt z

/-- `format_element` of bool, src/array/dtype/bool.rs:95-97. -/
def boolText (b : Bool) : List Char := if b then "True".toList else "False".toList

/-- `format!("{:.p}", v)` of a finite float, here an exact rational with a sign bit: the nearest
multiple of `10^-p`, ties to even, then `p` digits after the point. -/
def fixedText (p : Nat) (negative : Bool) (q : ℚ) : List Char :=
  let t := |q| * 10 ^ p
  let lo := ⌊t⌋.toNat
  let d := t - lo
  let z := if d < 1 / 2 then lo else if 1 / 2 < d then lo + 1 else if lo % 2 = 0 then lo else lo + 1
  (if negative then ['-'] else []) ++ showNat (z / 10 ^ p) ++ ['.'] ++ showNatPad p (z % 10 ^ p)

/-- `trim_end_matches('0')`. -/
def trimZeros (s : List Char) : List Char := (s.reverse.dropWhile (· = '0')).reverse

/-- `format_element` of float32 and float64, src/array/dtype/macros.rs:166-170, for finite values. -/
def floatText (negative : Bool) (q : ℚ) : List Char := trimZeros (fixedText 8 negative q)

/-- `format_element` of float16, src/array/dtype/float16.rs:158-162, for finite values. -/
def halfText (negative : Bool) (q : ℚ) : List Char := trimZeros (fixedText 4 negative q)

/-- `format_element` of strings, src/array/dtype/string.rs:175-178: quotes inside the string are not
escaped. -/
def quotedText (s : List Char) : List Char := ['\''] ++ s ++ ['\'']

end Rumpy
