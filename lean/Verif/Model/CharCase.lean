import Verif.Spec.CharCase
import Verif.Model.Char
/-!
# Model: letter case and predicates of the `char` functions (src/ops/char.rs)

The tables of Rust's `char` methods are the parameter `U`: `to_uppercase` and `to_lowercase` give the full case mappings,
`is_uppercase`, `is_lowercase`, `is_alphabetic` and `is_numeric` the properties Uppercase, Lowercase, Alphabetic and the
categories of numbers.
-/

namespace Rumpy
open Spec

/-- The part of `codepoint_to_upper` and `codepoint_to_lower` for characters with a mapping to one character
(src/ops/char.rs:24-33, 44-52). -/
def oneToOne (f : Char → List Char) (n : Nat) : Nat :=
  match charOf n with
  | some c =>
    match f c with
    | [u] => u.toNat
    | _ => n
  | none => n

/-- `codepoint_to_upper`, src/ops/char.rs:18-34. -/
def cpUpper (U : Unicode) (n : Nat) : Nat := if 0x61 ≤ n ∧ n ≤ 0x7A then n - 32 else oneToOne U.upper n

/-- `codepoint_to_lower`, src/ops/char.rs:38-53. -/
def cpLower (U : Unicode) (n : Nat) : Nat := if 0x41 ≤ n ∧ n ≤ 0x5A then n + 32 else oneToOne U.lower n

/-- The order of the stores in the loops over chunks of 8 and the rest, src/ops/char.rs:84-99. -/
def chunkOrder (total : Nat) : List Nat :=
  ((List.range (total / 8)).flatMap fun c => (List.range 8).map fun j => c * 8 + j) ++
    (List.range (total % 8)).map fun j => total / 8 * 8 + j

/-- `if cp == 0 { 0 } else { transform(cp) }`, src/ops/char.rs:92. -/
def keepZero (transform : Nat → Nat) (cp : Nat) : Nat := if cp = 0 then 0 else transform cp

/-- `apply_codepoint_transform_strided`, src/ops/char.rs:57-119, of a string array. -/
def transformOf (a : Strs) (transform : Nat → Nat) : StrOut :=
  let size := sizeOf a.view.shape
  let w := a.width
  let blank := List.replicate (size * w) 0
  if size = 0 then ⟨4, a.view.shape, w, blank⟩
  else if a.view.cFlag then
    ⟨4, a.view.shape, w, writes ((chunkOrder (size * w)).map fun k => (k, keepZero transform (a.cell a.view.offset k))) blank⟩
  else
    ⟨4, a.view.shape, w, writes (a.view.addrs.zipIdx.flatMap fun ai =>
      (List.range w).map fun j => (ai.2 * w + j, keepZero transform (a.cell ai.1 j))) blank⟩

/-- `upper`, src/ops/char.rs:426-428, with `apply_upper_fast`, src/ops/char.rs:122-133. -/
def charUpper (U : Unicode) (a : Strs) : StrOut :=
  transformOf a fun cp => if 0x61 ≤ cp ∧ cp ≤ 0x7A then cp - 32 else if cp ≤ 0x7F then cp else cpUpper U cp

/-- `lower`, src/ops/char.rs:431-433, with `apply_lower_fast`, src/ops/char.rs:136-147. -/
def charLower (U : Unicode) (a : Strs) : StrOut :=
  transformOf a fun cp => if 0x41 ≤ cp ∧ cp ≤ 0x5A then cp + 32 else if cp ≤ 0x7F then cp else cpLower U cp

/-- `char::from_u32(cp).map_or(false, |c| p(c))`. -/
def charTest (p : Char → Bool) (n : Nat) : Bool := (charOf n).any p

/-- `cp_is_alpha`, src/ops/char.rs:226-232. -/
def cpIsAlpha (U : Unicode) (n : Nat) : Bool :=
  if n ≤ 0x7F then (decide (0x41 ≤ n) && decide (n ≤ 0x5A)) || (decide (0x61 ≤ n) && decide (n ≤ 0x7A)) else charTest U.alphabetic n

/-- `cp_is_digit`, src/ops/char.rs:235-241. -/
def cpIsDigit (n : Nat) : Bool := if n ≤ 0x7F then decide (0x30 ≤ n) && decide (n ≤ 0x39) else charTest asciiDigit n

/-- `cp_is_alnum`, src/ops/char.rs:244-246. -/
def cpIsAlnum (U : Unicode) (n : Nat) : Bool := cpIsAlpha U n || cpIsDigit n

/-- `cp_is_upper`, src/ops/char.rs:258-264. -/
def cpIsUpper (U : Unicode) (n : Nat) : Bool :=
  if n ≤ 0x7F then decide (0x41 ≤ n) && decide (n ≤ 0x5A) else charTest U.isUpper n

/-- `cp_is_lower`, src/ops/char.rs:267-273. -/
def cpIsLower (U : Unicode) (n : Nat) : Bool :=
  if n ≤ 0x7F then decide (0x61 ≤ n) && decide (n ≤ 0x7A) else charTest U.isLower n

/-- `cp_is_cased`, src/ops/char.rs:276-278. -/
def cpIsCased (U : Unicode) (n : Nat) : Bool := cpIsUpper U n || cpIsLower U n

/-- `swapcase`, src/ops/char.rs:1768-1778. -/
def charSwapcase (U : Unicode) (a : Strs) : StrOut :=
  transformOf a fun cp => if cpIsUpper U cp then cpLower U cp else if cpIsLower U cp then cpUpper U cp else cp

/-- One element of `capitalize`, src/ops/char.rs:1665-1674, 1681-1688. -/
def capitalizeCell (U : Unicode) (w : Nat) (src : Nat → Nat) : List Nat :=
  let len := strlen src w
  if 0 < len then cpUpper U (src 0) :: (List.range' 1 (len - 1)).map fun i => cpLower U (src i) else []

/-- `capitalize`, src/ops/char.rs:1642-1693. -/
def charCapitalize (U : Unicode) (a : Strs) : StrOut := stringsOf a a.width (capitalizeCell U a.width)

/-- The loop of `title` over the characters of an element, src/ops/char.rs:1721-1736, 1745-1760. -/
def titleLoop (U : Unicode) (prev : Bool) : List Nat → List Nat
  | [] => []
  | cp :: r =>
    (if cpIsCased U cp then (if prev then cpLower U cp else cpUpper U cp) else cp) :: titleLoop U (cpIsCased U cp) r

/-- `title`, src/ops/char.rs:1696-1765. -/
def charTitle (U : Unicode) (a : Strs) : StrOut :=
  stringsOf a a.width fun src => titleLoop U false ((List.range (strlen src a.width)).map src)

/-- `apply_predicate_fast`, src/ops/char.rs:166-219, of a string array. -/
def predicateOf (a : Strs) (p : List Nat → Bool) : Arr Bool :=
  tableOf a (fun src => p ((List.range (strlen src a.width)).map src)) false

/-- `!cps.is_empty() && cps.iter().all(|&cp| p(cp))`. -/
def allCps (p : Nat → Bool) (cps : List Nat) : Bool := !cps.isEmpty && cps.all p

/-- `isalpha`, src/ops/char.rs:1376-1378. -/
def charIsalpha (U : Unicode) (a : Strs) : Arr Bool := predicateOf a (allCps (cpIsAlpha U))

/-- `isdigit`, src/ops/char.rs:1381-1383. -/
def charIsdigit (a : Strs) : Arr Bool := predicateOf a (allCps cpIsDigit)

/-- `isalnum`, src/ops/char.rs:1386-1388. -/
def charIsalnum (U : Unicode) (a : Strs) : Arr Bool := predicateOf a (allCps (cpIsAlnum U))

/-- `isupper`, src/ops/char.rs:1391-1396. -/
def charIsupper (U : Unicode) (a : Strs) : Arr Bool :=
  predicateOf a fun cps => cps.any (cpIsCased U) && cps.all fun cp => !cpIsLower U cp

/-- `islower`, src/ops/char.rs:1399-1404. -/
def charIslower (U : Unicode) (a : Strs) : Arr Bool :=
  predicateOf a fun cps => cps.any (cpIsCased U) && cps.all fun cp => !cpIsUpper U cp

/-- `isspace`, src/ops/char.rs:1407-1409. -/
def charIsspace (a : Strs) : Arr Bool := predicateOf a (allCps cpIsSpace)

/-- `isdecimal`, src/ops/char.rs:1533-1535. -/
def charIsdecimal (a : Strs) : Arr Bool := predicateOf a (allCps cpIsDigit)

/-- `isnumeric`, src/ops/char.rs:1538-1544. -/
def charIsnumeric (U : Unicode) (a : Strs) : Arr Bool := predicateOf a (allCps (charTest U.number))

/-- The loop of `istitle`, src/ops/char.rs:1554-1571. -/
def istitleLoop (U : Unicode) (has prev : Bool) : List Nat → Bool
  | [] => has
  | cp :: r =>
    if cpIsUpper U cp then (if prev then false else istitleLoop U true true r)
    else if cpIsLower U cp then (if prev then istitleLoop U true true r else false)
    else istitleLoop U has false r

/-- `istitle`, src/ops/char.rs:1547-1573. -/
def charIstitle (U : Unicode) (a : Strs) : Arr Bool :=
  predicateOf a fun cps => if cps.isEmpty then false else istitleLoop U false false cps

end Rumpy
