import Verif.Spec.Text
import Verif.Model.Select
/-!
# Model: storage of fixed-width strings

src/array/dtype/string.rs, src/array/constructors.rs and the string branches of
src/python/creation.rs.  An element of a `Str(w)` array is `w` units of 4 bytes, an element of a
`Bytes(w)` array `w` units of one byte.  A pointer to an element is modelled by the function
giving unit `j` behind it (`Nat → Nat`), so that reads past the element are visible.
-/

namespace Rumpy
open Spec

/-- An array of strings: the unit at each byte address, a view, and the width of an element in
units of `unit` bytes (4 for `Str`, 1 for `Bytes`; `itemsize`, src/array/dtype/string.rs:88-90 and
323-325). -/
structure Strs where
  unit : Nat
  mem : Int → Nat
  view : View
  width : Nat

/-- `ptr.offset(a) as *const u32`: the units from a byte address on. -/
def Strs.cell (a : Strs) (addr : Int) : Nat → Nat := fun j => a.mem (addr + a.unit * j)

/-- An element of width `w` holds the given codes: they fit, none is the padding 0, and 0 follows
up to the width.  The codes of a text `s` are `s.map Char.toNat`. -/
def CellOf (src : Nat → Nat) (w : Nat) (codes : List Nat) : Prop :=
  codes.length ≤ w ∧ 0 ∉ codes ∧ ∀ j < w, src j = codes.getD j 0

/-- The array holds the texts `t`, at every index. -/
def Strs.Holds (a : Strs) (t : Nd (List Char)) : Prop :=
  a.unit = 4 ∧ a.view.item = 4 * a.width ∧ a.view.shape = t.shape ∧
    ∀ idx, InShape t.shape idx → CellOf (a.cell (a.view.addr idx)) a.width ((t.get idx).map Char.toNat)

/-- The array of bytes strings holds `t`, at every index. -/
def Strs.HoldsBytes (a : Strs) (t : Nd (List Nat)) : Prop :=
  a.unit = 1 ∧ a.view.item = a.width ∧ a.view.shape = t.shape ∧
    ∀ idx, InShape t.shape idx → CellOf (a.cell (a.view.addr idx)) a.width (t.get idx)

/-- A freshly allocated array of strings: shape, width, and all units in order. -/
structure StrOut where
  unit : Nat
  shape : List Nat
  width : Nat
  units : List Nat
deriving DecidableEq, Repr

/-- Seen as an array. -/
def StrOut.strs (o : StrOut) : Strs :=
  ⟨o.unit, fun a => o.units.getD (a / o.unit).toNat 0, View.fresh o.shape (o.unit * o.width), o.width⟩

/-- `char::from_u32`. -/
def charOf (n : Nat) : Option Char := if n.isValidChar then some (Char.ofNat n) else none

/-- The loop of `read_string` over the units of an element: stop at 0, drop what is no character. -/
def readLoop : List Nat → List Char
  | [] => []
  | c :: r => if c = 0 then [] else
    match charOf c with
    | some ch => ch :: readLoop r
    | none => readLoop r

/-- `StrOps::read_string`, src/array/dtype/string.rs:31-44, and the body of `read_string`,
src/ops/char.rs:284-306. -/
def readString (src : Nat → Nat) (w : Nat) : List Char := readLoop ((List.range w).map src)

/-- `BytesOps::read_bytes`, src/array/dtype/string.rs:274-285. -/
def readBytes (src : Nat → Nat) (w : Nat) : List Nat := ((List.range w).map src).takeWhile (· ≠ 0)

/-- The stores of `StrOps::write_string`, src/array/dtype/string.rs:52-63 (`code` is `c as u32`)
and of `BytesOps::write_bytes`, src/array/dtype/string.rs:293-301 (`code` is the identity), into
the element starting at unit `base`; also the loop bodies of `from_vec_str`,
src/array/constructors.rs:233-244, of `from_vec_bytes`, src/array/constructors.rs:274-282, and of
`write_string`, src/ops/char.rs:312-333. -/
def storeCell (code : α → Nat) (w base : Nat) (s : List α) : List (Nat × Nat) :=
  let written := (s.take w).length
  ((s.take w).zipIdx.map fun cj => (base + cj.2, code cj.1)) ++
    (List.range' written (w - written)).map fun i => (base + i, 0)

/-- The stores of `write_string_at_offset`, src/array/dtype/string.rs:70-80, and
`write_bytes_at_offset`, src/array/dtype/string.rs:308-315: the memory after them. -/
def storeAt (code : α → Nat) (a : Strs) (addr : Int) (s : List α) : Int → Nat :=
  (storeCell code a.width 0 s).foldl
    (fun m ju => fun x => if x = addr + a.unit * ju.1 then ju.2 else m x) a.mem

/-- `from_vec_str`, src/array/constructors.rs:215-246, with `unit` 4, and `from_vec_bytes`,
src/array/constructors.rs:256-284, with `unit` 1. -/
def fromVec (unit : Nat) (code : α → Nat) (data : List (List α)) (w : Nat) : StrOut :=
  let n := data.length
  let blank := List.replicate (n * w) 0
  if n = 0 then ⟨unit, [n], w, blank⟩
  else ⟨unit, [n], w, writes (data.zipIdx.flatMap fun si => storeCell code w (si.2 * w) si.1) blank⟩

/-- `from_vec_str_with_shape`, src/array/constructors.rs:249-252, and `from_vec_bytes_with_shape`,
src/array/constructors.rs:287-290. -/
def fromVecShaped (unit : Nat) (code : α → Nat) (data : List (List α)) (shape : List Nat) (w : Nat) : Strs :=
  let arr := (fromVec unit code data w).strs
  { arr with view := (arr.view.reshape shape).getD arr.view }

/-- A Python list of strings, possibly nested. -/
inductive PyNest (α : Type) where
  | text (s : List α)
  | list (items : List (PyNest α))

mutual
/-- The contribution of one item to `compute_max_string_length`. -/
def maxLenItem : PyNest α → Nat
  | .text s => s.length
  | .list l => maxLen l
/-- `compute_max_string_length`, src/python/creation.rs:465-477, and `compute_max_bytes_length`,
src/python/creation.rs:480-492. -/
def maxLen : List (PyNest α) → Nat
  | [] => 0
  | i :: r => max (maxLenItem i) (maxLen r)
end

mutual
/-- `infer_dtype_from_list` of a nested list. -/
def inferItem : PyNest α → List (PyNest α) → Option Nat
  | .text s, r => some (maxLen (.text s :: r))
  | .list l, _ => inferWidth l
/-- `infer_dtype_from_list`, src/python/creation.rs:432-462, for lists of strings; the width of
the dtype it finds, `none` for a dtype that is no string dtype. -/
def inferWidth : List (PyNest α) → Option Nat
  | [] => none
  | i :: r => inferItem i r
end

mutual
/-- One nested list. -/
def flattenItem : PyNest α → List Nat × List (List α)
  | .text s => ([], [s])
  | .list l => (l.length :: (flattenItems l).1, (flattenItems l).2)
/-- The loop of `flatten_nested_list_str`, src/python/creation.rs:636-653, and
`flatten_nested_list_bytes`, src/python/creation.rs:656-673: the axes after the first (those of
the first nested list), and the strings. -/
def flattenItems : List (PyNest α) → List Nat × List (List α)
  | [] => ([], [])
  | i :: r =>
    let (s, d) := flattenItem i
    let (s', d') := flattenItems r
    (if s = [] then s' else s, d ++ d')
end

/-- The string of an item; `none` is the exception of `extract::<String>`. -/
def itemText : PyNest α → Option (List α)
  | .text s => some s
  | .list _ => none

/-- `from_list` without `dtype`, src/python/creation.rs:495-562, for lists of strings.  `none`
stands for the other dtypes and for exceptions. -/
def fromList (unit : Nat) (code : α → Nat) (items : List (PyNest α)) : Option Strs :=
  match items, inferWidth items with
  | .list _ :: _, some w =>
    let (s, d) := flattenItems items
    some (fromVecShaped unit code d (items.length :: s) w)
  | .text _ :: _, some w => (items.mapM itemText).map fun data => (fromVec unit code data w).strs
  | _, _ => none

/-- UTF-8, as Rust stores a `String`. -/
def utf8 (c : Char) : List Nat :=
  let n := c.toNat
  if n < 0x80 then [n]
  else if n < 0x800 then [0xC0 + n / 64, 0x80 + n % 64]
  else if n < 0x10000 then [0xE0 + n / 64 / 64, 0x80 + n / 64 % 64, 0x80 + n % 64]
  else [0xF0 + n / 64 / 64 / 64, 0x80 + n / 64 / 64 % 64, 0x80 + n / 64 % 64, 0x80 + n % 64]

/-- `Ord` of `Vec<u8>` and, on the UTF-8 bytes, of `String`. -/
def compareBytes : List Nat → List Nat → Ordering
  | [], [] => .eq
  | [], _ :: _ => .lt
  | _ :: _, [] => .gt
  | a :: s, b :: t => if a < b then .lt else if b < a then .gt else compareBytes s t

/-- `Ord` of `String`. -/
def compareText (s t : List Char) : Ordering := compareBytes (s.flatMap utf8) (t.flatMap utf8)

/-- `StrOps::compare_elements`, src/array/dtype/string.rs:180-190: both elements are read with the
width of the one dtype. -/
def compareStr (a : Strs) (x y : Int) : Ordering :=
  compareText (readString (a.cell x) a.width) (readString (a.cell y) a.width)

/-- `BytesOps::compare_elements`, src/array/dtype/string.rs:404-414. -/
def compareBytesElem (a : Strs) (x y : Int) : Ordering :=
  compareBytes (readBytes (a.cell x) a.width) (readBytes (a.cell y) a.width)

/-- `StrOps::is_truthy`, src/array/dtype/string.rs:192-196, and `BytesOps::is_truthy`,
src/array/dtype/string.rs:416-419: the first unit, without a look at the width. -/
def truthy (a : Strs) (x : Int) : Bool := a.cell x 0 ≠ 0

/-- `StrOps::write_zero`, src/array/dtype/string.rs:115-121, and `write_one`,
src/array/dtype/string.rs:123-126, as the text written. -/
def writeOne (w base : Nat) : List (Nat × Nat) := storeCell Char.toNat w base ['1']

/-- `copy`, i.e. `astype` to the same dtype, src/array/mod.rs:349-427, of a string array: one block
when it is C-contiguous, else element by element with `copy_element`,
src/array/dtype/string.rs:128-131. -/
def copyStrs (a : Strs) : StrOut :=
  let size := sizeOf a.view.shape
  let blank := List.replicate (size * a.width) 0
  if size = 0 then ⟨a.unit, a.view.shape, a.width, blank⟩
  else if a.view.cFlag then
    ⟨a.unit, a.view.shape, a.width, (List.range (size * a.width)).map fun (i : Nat) => a.mem (a.view.offset + a.unit * i)⟩
  else ⟨a.unit, a.view.shape, a.width, writes (a.view.addrs.zipIdx.flatMap fun oi =>
    storeCell Char.toNat a.width (oi.2 * a.width) (readString (a.cell oi.1) a.width)) blank⟩

/-- The same for `Bytes` arrays, with `copy_element`, src/array/dtype/string.rs:358-361. -/
def copyByteStrs (a : Strs) : StrOut :=
  let size := sizeOf a.view.shape
  let blank := List.replicate (size * a.width) 0
  if size = 0 then ⟨a.unit, a.view.shape, a.width, blank⟩
  else if a.view.cFlag then
    ⟨a.unit, a.view.shape, a.width, (List.range (size * a.width)).map fun (i : Nat) => a.mem (a.view.offset + a.unit * i)⟩
  else ⟨a.unit, a.view.shape, a.width, writes (a.view.addrs.zipIdx.flatMap fun oi =>
    storeCell id a.width (oi.2 * a.width) (readBytes (a.cell oi.1) a.width)) blank⟩

end Rumpy
