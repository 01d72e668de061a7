import Verif.Model.Strings
/-!
# Model: the `char` functions (src/ops/char.rs)

Arrays of strings are `Strs` (Model/Strings).  Almost every function has the same two loops, over
the elements of a C-contiguous array and over `iter_offsets`; they are `Strs.sources` here, and what
is done to one element is a function of the pointer to it.  Arrays of other dtypes give `None`
(except in the comparisons, see `compareStrings`) and are not modelled.
-/

namespace Rumpy
open Spec

/-- The pointers `src_str` of the two loops, e.g. src/ops/char.rs:557-560 and 582-584. -/
def Strs.sources (a : Strs) : List (Nat → Nat) :=
  if a.view.cFlag then
    (List.range (sizeOf a.view.shape)).map fun (i : Nat) => a.cell (a.view.offset + 4 * ((i * a.width : Nat) : Int))
  else a.view.addrs.map a.cell

/-- A function giving one number or flag for each element, `*dst.add(elem_idx) = result`. -/
def tableOf (a : Strs) (f : (Nat → Nat) → β) (zero : β) : Arr β :=
  let size := sizeOf a.view.shape
  let blank := List.replicate size zero
  if size = 0 then ⟨a.view.shape, blank⟩
  else ⟨a.view.shape, writes (a.sources.zipIdx.map fun si => (si.2, f si.1)) blank⟩

/-- A function writing the units `f src` one after another from `dst_str` on, which is
`dst_base.add(elem_idx * w)`. -/
def stringsOf (a : Strs) (w : Nat) (f : (Nat → Nat) → List Nat) : StrOut :=
  let size := sizeOf a.view.shape
  let blank := List.replicate (size * w) 0
  if size = 0 then ⟨4, a.view.shape, w, blank⟩
  else ⟨4, a.view.shape, w, writes (a.sources.zipIdx.flatMap fun si =>
    (f si.1).zipIdx.map fun xj => (si.2 * w + xj.2, xj.1)) blank⟩

/-- `utf32_strlen`, src/ops/char.rs:155-162. -/
def strlen (src : Nat → Nat) (w : Nat) : Nat := ((List.range w).find? fun i => src i == 0).getD w

/-- The inner loops comparing `*src_str.add(i + j)` with `sub_cps[j]`, e.g. src/ops/char.rs:569-573. -/
def matchesAt (src : Nat → Nat) (i : Nat) (sub : List Nat) : Bool := sub.zipIdx.all fun cj => src (i + cj.2) == cj.1

/-- `for i in 0..n { if p(i) { found = Some(i); break; } }`. -/
def firstMatch (p : Nat → Bool) (n : Nat) : Option Nat := (List.range n).find? p

/-- `for i in (0..n).rev() { if p(i) { found = Some(i); break; } }`. -/
def lastMatch (p : Nat → Bool) : Nat → Option Nat
  | 0 => none
  | n + 1 => if p n then some n else lastMatch p n

/-- The code points of a Rust string, `sub.chars().map(|c| c as u32)`. -/
def codes (s : List Char) : List Nat := s.map Char.toNat

/-- One element of `find`, src/ops/char.rs:561-578. -/
def findCell (sub : List Nat) (w : Nat) (src : Nat → Nat) : Int :=
  let len := strlen src w
  if len < sub.length then -1
  else (firstMatch (fun i => matchesAt src i sub) (len - sub.length + 1)).elim (-1) fun i => i

/-- `find`, src/ops/char.rs:531-607. -/
def charFind (a : Strs) (sub : List Char) : Arr Int :=
  if sub.length = 0 then ⟨a.view.shape, List.replicate (sizeOf a.view.shape) 0⟩
  else tableOf a (findCell (codes sub) a.width) 0

/-- One element of `rfind`, src/ops/char.rs:655-676. -/
def rfindCell (sub : List Nat) (w : Nat) (src : Nat → Nat) : Int :=
  let len := strlen src w
  if len < sub.length then -1
  else (lastMatch (fun i => matchesAt src i sub) (len - sub.length + 1)).elim (-1) fun i => i

/-- `rfind`, src/ops/char.rs:611-709. -/
def charRfind (a : Strs) (sub : List Char) : Arr Int :=
  if sub.length = 0 then tableOf a (fun src => (strlen src a.width : Int)) 0
  else tableOf a (rfindCell (codes sub) a.width) 0

/-- `index`, src/python/char.rs:95-111: `none` is the `ValueError`; `start` and `end` are ignored there. -/
def charIndex (a : Strs) (sub : List Char) : Option (Arr Int) :=
  let r := charFind a sub
  if r.data.any fun x => x == -1 then none else some r

/-- `rindex`, src/python/char.rs:116-131. -/
def charRindex (a : Strs) (sub : List Char) : Option (Arr Int) :=
  let r := charRfind a sub
  if r.data.any fun x => x == -1 then none else some r

/-- The three texts of `partition`, src/ops/char.rs:759-799. -/
def partitionCell (sep : List Nat) (w : Nat) (src : Nat → Nat) : List Nat × List Nat × List Nat :=
  let len := strlen src w
  let found := if sep.length ≤ len then firstMatch (fun i => matchesAt src i sep) (len - sep.length + 1) else none
  match found with
  | some idx => ((List.range idx).map src, sep,
      (List.range' (idx + sep.length) (len - (idx + sep.length))).map src)
  | none => ((List.range len).map src, [], [])

/-- The three texts of `rpartition`, src/ops/char.rs:885-926. -/
def rpartitionCell (sep : List Nat) (w : Nat) (src : Nat → Nat) : List Nat × List Nat × List Nat :=
  let len := strlen src w
  let found := if sep.length ≤ len then lastMatch (fun i => matchesAt src i sep) (len - sep.length + 1) else none
  match found with
  | some idx => ((List.range idx).map src, sep,
      (List.range' (idx + sep.length) (len - (idx + sep.length))).map src)
  | none => ([], [], (List.range len).map src)

/-- The loops of `partition` and `rpartition` around them, src/ops/char.rs:738-846 and 864-977: the
texts go to the elements `3 * elem_idx`, `3 * elem_idx + 1` and `3 * elem_idx + 2`. -/
def partitionOf (a : Strs) (cell : (Nat → Nat) → List Nat × List Nat × List Nat) : StrOut :=
  let w := a.width
  let size := sizeOf a.view.shape
  let blank := List.replicate (size * 3 * w) 0
  let put (base : Nat) (l : List Nat) := l.zipIdx.map fun xj => (base * w + xj.2, xj.1)
  if size = 0 then ⟨4, a.view.shape ++ [3], w, blank⟩
  else ⟨4, a.view.shape ++ [3], w, writes (a.sources.zipIdx.flatMap fun si =>
    let (x, y, z) := cell si.1
    put (si.2 * 3) x ++ put (si.2 * 3 + 1) y ++ put (si.2 * 3 + 2) z) blank⟩

/-- `partition`, src/ops/char.rs:725-847. -/
def charPartition (a : Strs) (sep : List Char) : Option StrOut :=
  if sep.length = 0 then none else some (partitionOf a (partitionCell (codes sep) a.width))

/-- `rpartition`, src/ops/char.rs:851-978. -/
def charRpartition (a : Strs) (sep : List Char) : Option StrOut :=
  if sep.length = 0 then none else some (partitionOf a (rpartitionCell (codes sep) a.width))

/-- One element of `join`, src/ops/char.rs:1011-1030. -/
def joinCell (sep : List Nat) (w : Nat) (src : Nat → Nat) : List Nat :=
  let len := strlen src w
  if len = 0 then [] else src 0 :: (List.range' 1 (len - 1)).flatMap fun i => sep ++ [src i]

/-- `join`, src/ops/char.rs:982-1059. -/
def charJoin (sep : List Char) (a : Strs) : StrOut :=
  if sizeOf a.view.shape = 0 then ⟨4, a.view.shape, a.width, List.replicate (sizeOf a.view.shape * a.width) 0⟩
  else
    let w := if a.width = 0 then 0 else a.width + (a.width - 1) * sep.length
    stringsOf a w (joinCell (codes sep) a.width)

/-- `cnt < max_count`; `None` is `usize::MAX`, which no count of a string in memory reaches. -/
def below (cnt : Nat) (limit : Option Nat) : Bool := limit.elim true fun l => decide (cnt < l)

/-- The counting loop of `replace`, src/ops/char.rs:1095-1111, `fuel` steps of it. -/
def replaceCount (src : Nat → Nat) (old : List Nat) (len : Nat) (limit : Option Nat) : Nat → Nat → Nat → Nat
  | 0, _, cnt => cnt
  | fuel + 1, i, cnt =>
    if i + old.length ≤ len ∧ below cnt limit then
      if matchesAt src i old then replaceCount src old len limit fuel (i + old.length) (cnt + 1)
      else replaceCount src old len limit fuel (i + 1) cnt
    else cnt

/-- The copying loop of `replace`, src/ops/char.rs:1162-1196, `fuel` steps of it. -/
def replaceLoop (src : Nat → Nat) (old new : List Nat) (len : Nat) (limit : Option Nat) : Nat → Nat → Nat → List Nat
  | 0, _, _ => []
  | fuel + 1, i, cnt =>
    if i < len then
      if (i + old.length ≤ len ∧ below cnt limit) ∧ matchesAt src i old then
        new ++ replaceLoop src old new len limit fuel (i + old.length) (cnt + 1)
      else src i :: replaceLoop src old new len limit fuel (i + 1) cnt
    else []

/-- `replace`, src/ops/char.rs:1062-1241. -/
def charReplace (a : Strs) (old new : List Char) (limit : Option Nat) : StrOut :=
  if sizeOf a.view.shape = 0 then ⟨4, a.view.shape, a.width, List.replicate (sizeOf a.view.shape * a.width) 0⟩
  else if old.length = 0 then copyStrs a
  else
    let outLen (src : Nat → Nat) : Nat :=
      let len := strlen src a.width
      let cnt := replaceCount src (codes old) len limit (len + 1) 0 0
      len - cnt * old.length + cnt * new.length
    let w := max a.width (a.sources.foldl (fun m src => max m (outLen src)) 0)
    stringsOf a w fun src =>
      let len := strlen src a.width
      replaceLoop src (codes old) (codes new) len limit (len + 1) 0 0

/-- The loop of `count`, src/ops/char.rs:1290-1304, `fuel` steps of it. -/
def countLoop (src : Nat → Nat) (sub : List Nat) (len : Nat) : Nat → Nat → Int → Int
  | 0, _, cnt => cnt
  | fuel + 1, i, cnt =>
    if i ≤ len - sub.length then
      if matchesAt src i sub then countLoop src sub len fuel (i + sub.length) (cnt + 1)
      else countLoop src sub len fuel (i + 1) cnt
    else cnt

/-- One element of `count`. -/
def countCell (sub : List Nat) (w : Nat) (src : Nat → Nat) : Int :=
  let len := strlen src w
  if sub.length ≤ len then countLoop src sub len (len + 1) 0 0 else 0

/-- `count`, src/ops/char.rs:1244-1332. -/
def charCount (a : Strs) (sub : List Char) : Arr Int :=
  if sub.length = 0 then tableOf a (fun src => ((strlen src a.width + 1 : Nat) : Int)) 0
  else tableOf a (countCell (codes sub) a.width) 0

/-- `str_len`, src/ops/char.rs:1335-1369. -/
def charStrLen (a : Strs) : Arr Int := tableOf a (fun src => (strlen src a.width : Int)) 0

/-- `startswith`, src/ops/char.rs:1412-1464: the width of the element is not looked at. -/
def charStartswith (a : Strs) (pre : List Char) : Arr Bool := tableOf a (fun src => matchesAt src 0 (codes pre)) false

/-- One element of `endswith`, src/ops/char.rs:1491-1504. -/
def endswithCell (suf : List Nat) (w : Nat) (src : Nat → Nat) : Bool :=
  let len := strlen src w
  if suf.length ≤ len then matchesAt src (len - suf.length) suf else false

/-- `endswith`, src/ops/char.rs:1467-1530. -/
def charEndswith (a : Strs) (suf : List Char) : Arr Bool := tableOf a (endswithCell (codes suf) a.width) false

/-- `char::is_whitespace` above ASCII: the characters with the Unicode property White_Space. -/
def whiteSpace (n : Nat) : Bool :=
  n == 0x85 || n == 0xA0 || n == 0x1680 || (0x2000 ≤ n && n ≤ 0x200A) || n == 0x2028 || n == 0x2029 || n == 0x202F ||
    n == 0x205F || n == 0x3000

/-- `cp_is_space`, src/ops/char.rs:249-255. -/
def cpIsSpace (n : Nat) : Bool :=
  if n ≤ 0x7F then n == 0x20 || n == 0x09 || n == 0x0A || n == 0x0B || n == 0x0C || n == 0x0D
  else (charOf n).isSome && whiteSpace n

/-- `while e > start && cp_is_space(*src_str.add(e - 1)) { e -= 1; }`, src/ops/char.rs:472. -/
def stripEnd (src : Nat → Nat) (start : Nat) : Nat → Nat
  | 0 => 0
  | e + 1 => if start < e + 1 ∧ cpIsSpace (src e) then stripEnd src start e else e + 1

/-- One element of `strip_fast`, src/ops/char.rs:460-480; `mode` 0 strips both ends, 1 the left one,
2 the right one. -/
def stripCell (mode w : Nat) (src : Nat → Nat) : List Nat :=
  let len := strlen src w
  let start := if mode = 2 then 0 else (firstMatch (fun i => !cpIsSpace (src i)) len).getD len
  let stop := if mode = 1 then len else stripEnd src start len
  (List.range (stop - start)).map fun i => src (start + i)

/-- `strip_fast`, src/ops/char.rs:437-509, with `strip`, `lstrip` and `rstrip`. -/
def charStrip (mode : Nat) (a : Strs) : StrOut := stringsOf a a.width (stripCell mode a.width)

/-- `read_string`, src/ops/char.rs:284-306: element `i` is looked for at `i * itemsize` from the
start of the view, whatever its strides. -/
def readFlat (a : Strs) (i : Nat) : List Char :=
  readString (a.cell (a.view.offset + ((i * a.view.item : Nat) : Int))) a.width

/-- The second half of `apply_unary_string_op` and `apply_binary_string_op`: an array wide enough
for all results. -/
def storeResults (shape : List Nat) (w : Nat) (results : List (List Char)) : StrOut :=
  let w := max w (results.foldl (fun m r => max m r.length) 0)
  ⟨4, shape, w, writes (results.zipIdx.flatMap fun ri => storeCell Char.toNat w (ri.2 * w) ri.1)
    (List.replicate (sizeOf shape * w) 0)⟩

/-- `apply_unary_string_op`, src/ops/char.rs:336-367. -/
def applyUnary (a : Strs) (op : List Char → List Char) : StrOut :=
  storeResults a.view.shape a.width ((List.range (sizeOf a.view.shape)).map fun i => op (readFlat a i))

/-- `apply_binary_string_op`, src/ops/char.rs:370-409. -/
def applyBinary (a b : Strs) (op : List Char → List Char → List Char) : Option StrOut :=
  if a.view.shape ≠ b.view.shape then none
  else some (storeResults a.view.shape (max a.width b.width)
    ((List.range (sizeOf a.view.shape)).map fun i => op (readFlat a i) (readFlat b i)))

/-- `add`, src/ops/char.rs:416-418. -/
def charAdd (a b : Strs) : Option StrOut := applyBinary a b fun s t => s ++ t

/-- `multiply`, src/ops/char.rs:421-423. -/
def charMultiply (a : Strs) (n : Nat) : StrOut := applyUnary a fun s => (List.replicate n s).flatten

/-- `center`, src/ops/char.rs:1580-1597. -/
def charCenter (a : Strs) (width : Nat) (fill : Char) : StrOut :=
  applyUnary a fun s =>
    if s.length ≥ width then s
    else
      let total := width - s.length
      let left := total / 2
      List.replicate left fill ++ s ++ List.replicate (total - left) fill

/-- `ljust`, src/ops/char.rs:1600-1609. -/
def charLjust (a : Strs) (width : Nat) (fill : Char) : StrOut :=
  applyUnary a fun s => if s.length ≥ width then s else s ++ List.replicate (width - s.length) fill

/-- `rjust`, src/ops/char.rs:1612-1621. -/
def charRjust (a : Strs) (width : Nat) (fill : Char) : StrOut :=
  applyUnary a fun s => if s.length ≥ width then s else List.replicate (width - s.length) fill ++ s

/-- `zfill`, src/ops/char.rs:1624-1639. -/
def charZfill (a : Strs) (width : Nat) : StrOut :=
  applyUnary a fun s =>
    if s.length ≥ width then s
    else
      let (sign, rest) := if s.head? = some '-' ∨ s.head? = some '+' then (s.take 1, s.drop 1) else ([], s)
      sign ++ List.replicate (width - s.length) '0' ++ rest

/-- The loop of `expandtabs`, src/ops/char.rs:1847-1867, from a column on. -/
def expandLoop (tabsize : Nat) : Nat → List Char → List Char
  | _, [] => []
  | col, c :: s =>
    if c = '\t' then
      let spaces := if tabsize = 0 then 0 else tabsize - col % tabsize
      List.replicate spaces ' ' ++ expandLoop tabsize (col + spaces) s
    else if c = '\n' ∨ c = '\r' then c :: expandLoop tabsize 0 s
    else c :: expandLoop tabsize (col + 1) s

/-- `expandtabs`, src/ops/char.rs:1847-1867. -/
def charExpandtabs (a : Strs) (tabsize : Nat) : StrOut := applyUnary a (expandLoop tabsize 0)

/-- `StrCmp`, src/ops/char.rs:1786. -/
inductive StrCmp where
  | eq | ne | lt | le | gt | ge
deriving DecidableEq, Repr

/-- The comparison of two Rust strings, src/ops/char.rs:1802-1809. -/
def StrCmp.eval (cmp : StrCmp) (o : Ordering) : Bool :=
  match cmp with
  | .eq => o == .eq
  | .ne => o != .eq
  | .lt => o == .lt
  | .le => o != .gt
  | .gt => o == .gt
  | .ge => o != .lt

/-- `compare_strings`, src/ops/char.rs:1789-1814, of string arrays. -/
def compareStrings (a b : Strs) (cmp : StrCmp) : Option (Arr Bool) :=
  if a.view.shape ≠ b.view.shape then none
  else
    let size := sizeOf a.view.shape
    some ⟨a.view.shape, writes ((List.range size).map fun i =>
      (i, cmp.eval (compareText (readFlat a i) (readFlat b i)))) (List.replicate size false)⟩

/-- `join_with`, src/ops/char.rs:1870-1877. -/
def joinWith (a : Strs) (sep : List Char) : List Char :=
  sep.intercalate ((List.range (sizeOf a.view.shape)).map (readFlat a))

/-- `find`, src/python/char.rs:75-80; `rfind`, `count` and others treat `start` and `end` alike. -/
def pyFind (a : Strs) (sub : List Char) (_start _stop : Option Nat) : Arr Int := charFind a sub

/-- `strip`, src/python/char.rs:45-50, with `chars`. -/
def pyStrip (a : Strs) (_chars : Option (List Char)) : StrOut := charStrip 0 a

end Rumpy
