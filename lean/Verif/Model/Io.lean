import Verif.Model.Copy
import Verif.Model.DType
/-!
# Model: files (src/ops/io.rs)

A file is a list of bytes, text a list of characters.  Input and output themselves do not fail in the model, except
that a file can end too early.  Memory is a function from byte addresses to bytes.
-/

namespace Rumpy
open Spec

/-- The bytes of an element. -/
def elemBytes (mem : Int → UInt8) (item : Nat) (addr : Int) : List UInt8 :=
  (List.range item).map fun (k : Nat) => mem (addr + k)

/-- The bytes of ASCII text. -/
def asciiBytes (cs : List Char) : List UInt8 := cs.map fun c => c.toNat.toUInt8

/-- `to_le_bytes`, for `k` bytes. -/
def leBytes : Nat → Nat → List UInt8
  | 0, _ => []
  | k + 1, n => (n % 256).toUInt8 :: leBytes k (n / 256)

/-- `from_le_bytes`. -/
def fromLe : List UInt8 → Nat
  | [] => 0
  | b :: bs => b.toNat + 256 * fromLe bs

/-- `NPY_MAGIC`, src/ops/io.rs:366. -/
def npyMagic : List UInt8 := [0x93, 0x4E, 0x55, 0x4D, 0x50, 0x59]

/-- The header dictionary, src/ops/io.rs:382-399. -/
def npyHeader (d : DType) (v : View) : List Char :=
  "{'descr': '".toList ++ (DType.typestr d).toList ++ "', 'fortran_order': ".toList ++
    (if v.fFlag && !v.cFlag then "True" else "False").toList ++ ", 'shape': (".toList ++
    List.intercalate ", ".toList (v.shape.map showNat) ++ (if v.shape.length = 1 then [','] else []) ++ ")}".toList

/-- The contiguous data, src/ops/io.rs:439-445 and 800-806.  `copy` copies element by element (C57). -/
def contiguousBytes (mem : Int → UInt8) (d : DType) (v : View) : List UInt8 :=
  let nbytes := sizeOf v.shape * v.item
  if v.cFlag then (List.range nbytes).map fun (i : Nat) => mem (v.offset + i)
  else (copyArr (d = .f64 ∨ d = .i64) (elemBytes mem v.item) v (List.replicate v.item 0)).data.flatten

/-- `write_npy`, src/ops/io.rs:380-449. -/
def writeNpy (mem : Int → UInt8) (d : DType) (v : View) : List UInt8 :=
  let header := npyHeader d v
  let padding := (64 - ((10 + header.length) % 64)) % 64
  let padded := header.length + padding
  npyMagic ++ (if padded > 65535 then [2, 0] ++ leBytes 4 padded else [1, 0] ++ leBytes 2 padded) ++
    asciiBytes header ++
    (if padding > 0 then List.replicate (padding - 1) 0x20 ++ [0x0A] else []) ++
    contiguousBytes mem d v

/-- `read_exact`: the bytes and the rest. -/
def readExact (n : Nat) (bs : List UInt8) : Option (List UInt8 × List UInt8) :=
  if n ≤ bs.length then some (bs.take n, bs.drop n) else none

/-- `char::is_whitespace`. -/
def isSpaceChar (c : Char) : Bool :=
  let n := c.toNat
  (9 ≤ n && n ≤ 13) || n == 0x20 || n == 0x85 || n == 0xA0 || n == 0x1680 || (0x2000 ≤ n && n ≤ 0x200A) ||
    n == 0x2028 || n == 0x2029 || n == 0x202F || n == 0x205F || n == 0x3000

/-- `str::trim`. -/
def trimStr (s : List Char) : List Char := ((s.dropWhile isSpaceChar).reverse.dropWhile isSpaceChar).reverse

/-- `str::find` of a pattern; the text after the first match. -/
def afterPattern (pat : List Char) : List Char → Option (List Char)
  | [] => if pat.isPrefixOf [] then some [] else none
  | c :: s => if pat.isPrefixOf (c :: s) then some ((c :: s).drop pat.length) else afterPattern pat s

/-- `extract_string_value`, src/ops/io.rs:560-583. -/
def extractString (header key : List Char) : Option (List Char) :=
  [['\''] ++ key ++ "': '".toList, ['"'] ++ key ++ "': '".toList, ['\''] ++ key ++ "': \"".toList,
    ['"'] ++ key ++ "': \"".toList].findSome? fun pat =>
      (afterPattern pat header).bind fun rest =>
        if rest.any (fun c => c == '\'' || c == '"') then some (rest.takeWhile fun c => !(c == '\'' || c == '"')) else none

/-- `extract_bool_value`, src/ops/io.rs:586-602. -/
def extractBool (header key : List Char) : Option Bool :=
  [['\''] ++ key ++ "': ".toList, ['"'] ++ key ++ "': ".toList].findSome? fun pat =>
    (afterPattern pat header).bind fun rest =>
      if "True".toList.isPrefixOf rest then some true else if "False".toList.isPrefixOf rest then some false else none

/-- `extract_shape`, src/ops/io.rs:605-637. -/
def extractShape (header : List Char) : Option (List Nat) :=
  ["'shape': (".toList, "\"shape': (".toList, "'shape':(".toList].findSome? fun pat =>
    (afterPattern pat header).bind fun rest =>
      if rest.contains ')' then
        some (((rest.takeWhile (· != ')')).splitOn ',').filterMap fun s =>
          if (trimStr s).isEmpty then none else parseUsize (trimStr s))
      else none

/-- `parse_npy_header`, src/ops/io.rs:541-557. -/
def parseNpyHeader (header : List Char) : Option (DType × List Nat × Bool) :=
  let header := trimStr header
  (extractString header "descr".toList).bind fun descr =>
  (parseDType (String.ofList descr)).bind fun d =>
  (extractBool header "fortran_order".toList).bind fun f =>
  (extractShape header).map fun s => (d, s, f)

/-- A loaded array: its dtype, its view and its buffer. -/
structure Loaded where
  dtype : DType
  view : View
  buffer : List UInt8
deriving DecidableEq

/-- The bytes of the element at an address of the buffer; `none` outside the buffer. -/
def Loaded.elem? (l : Loaded) (addr : Int) : Option (List UInt8) :=
  if 0 ≤ addr ∧ addr.toNat + l.view.item ≤ l.buffer.length then
    some ((l.buffer.drop addr.toNat).take l.view.item)
  else none

/-- The length field, src/ops/io.rs:476-490. -/
def readHeaderLen (version : List UInt8) (bs : List UInt8) : Option (Nat × List UInt8) :=
  if version.getD 0 0 = 1 then (readExact 2 bs).map fun r => (fromLe r.1, r.2)
  else if 2 ≤ version.getD 0 0 then (readExact 4 bs).map fun r => (fromLe r.1, r.2)
  else none

/-- The array made of the header and the data, src/ops/io.rs:505-537, and what is left to read; strides by
src/ops/io.rs:640-659, which are the loops of src/array/mod.rs.  The number of bytes is a `usize`, which wraps around in a
release build. -/
def npyArray (d : DType) (shape : List Nat) (fortran : Bool) (bs : List UInt8) : Option (Loaded × List UInt8) :=
  let item := DType.itemsize d
  (readExact ((sizeOf shape * item) % 2 ^ 64) bs).map fun r =>
    (⟨d, ⟨0, shape, if fortran then fStrides shape item else cStrides shape item, item, !fortran,
      fortran || decide ((shape.filter fun n => decide (n > 1)).length ≤ 1)⟩, r.1⟩, r.2)

/-- `read_npy`, src/ops/io.rs:459-538, with what is left to read.  `decode` is `String::from_utf8`. -/
def readNpy (decode : List UInt8 → Option (List Char)) (bs : List UInt8) : Option (Loaded × List UInt8) :=
  (readExact 6 bs).bind fun r =>
  if r.1 ≠ npyMagic then none
  else
    (readExact 2 r.2).bind fun r =>
    (readHeaderLen r.1 r.2).bind fun r =>
    (readExact r.1 r.2).bind fun r =>
    (decode r.1).bind fun header =>
    (parseNpyHeader header).bind fun h => npyArray h.1 h.2.1 h.2.2 r.2

/-- `frombuffer`, src/ops/io.rs:662-700.  A zero item size is a division by zero. -/
def frombuffer (data : List UInt8) (d : DType) (count : Int) (offset : Nat) : Option Loaded :=
  let item := DType.itemsize d
  if item = 0 then none
  else
    let maxElements := (data.length - offset) / item
    if 0 ≤ count ∧ maxElements < count.toNat then none
    else
      let n := if count < 0 then maxElements else count.toNat
      some ⟨d, ⟨0, [n], [(item : Int)], item, true, false⟩, (data.drop offset).take (n * item)⟩

/-- `fromfile` in binary mode, src/ops/io.rs:715-764. -/
def fromfile (data : List UInt8) (d : DType) (count : Int) (offset : Nat) : Option Loaded :=
  let item := DType.itemsize d
  if item = 0 then none
  else
    let maxElements := (data.length - offset) / item
    let n := if count < 0 then maxElements else min count.toNat maxElements
    (readExact (n * item) (data.drop offset)).map fun r => ⟨d, ⟨0, [n], [(item : Int)], item, true, false⟩, r.1⟩

end Rumpy
