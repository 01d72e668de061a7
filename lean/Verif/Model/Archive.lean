import Verif.Model.Io
/-!
# Model: archives of arrays (src/ops/io.rs:844-911, src/python/io.rs:104-207)

The `zip` crate enters by contract.  An archive is the list of its entries, a name and the bytes stored under it;
`start_file` refuses a name that the archive already holds, and dropping an unfinished writer writes what it holds.
Compression changes the bytes of the file, not the entries.  A file system is a function from paths to contents.
-/

namespace Rumpy
open Spec

/-- An entry of an archive. -/
abbrev Entry := List Char × List UInt8

/-- An array given to `savez`: its dtype, its view and the memory it lies in. -/
structure Source where
  mem : Int → UInt8
  dtype : DType
  view : View

/-- The extension of the entries, src/ops/io.rs:867 and 892. -/
def npyExt : List Char := ['.', 'n', 'p', 'y']

/-- The loop of `savez_impl`, src/ops/io.rs:866-872: the entries written, and whether every array was written. -/
def writeEntries : List (List Char × Source) → List Entry → List Entry × Bool
  | [], done => (done, true)
  | (name, a) :: rest, done =>
    if done.any fun e => e.1 == name ++ npyExt then (done, false)
    else writeEntries rest (done ++ [(name ++ npyExt, writeNpy a.mem a.dtype a.view)])

/-- `trim_end_matches(".npy")` on the reversed name, src/ops/io.rs:906. -/
def trimReversed : List Char → List Char
  | 'y' :: 'p' :: 'n' :: '.' :: r => trimReversed r
  | s => s

/-- The name of a loaded array, src/ops/io.rs:905-906. -/
def loadedName (name : List Char) : List Char := (trimReversed name.reverse).reverse

/-- The loop of `load_npz`, src/ops/io.rs:885-910. -/
def loadNpz (decode : List UInt8 → Option (List Char)) : List Entry → Option (List (List Char × Loaded))
  | [] => some []
  | e :: rest =>
    if !(npyExt.isSuffixOf e.1) then loadNpz decode rest
    else
      (readNpy decode e.2).bind fun r =>
      (loadNpz decode rest).map fun l => (loadedName e.1, r.1) :: l

/-- `set_item` of a Python `dict`: the value of a key that is present is replaced, and a new key goes to the end. -/
def dictSet (dict : List (List Char × β)) (k : List Char) (x : β) : List (List Char × β) :=
  if dict.any fun e => e.1 == k then dict.map fun e => if e.1 == k then (k, x) else e else dict ++ [(k, x)]

/-- Looking up a key of a Python `dict`. -/
def dictGet (dict : List (List Char × β)) (k : List Char) : Option β := (dict.find? fun e => e.1 == k).map (·.2)

/-- The `dict` that `load` returns, src/python/io.rs:135-139. -/
def loadDict (arrays : List (List Char × β)) : List (List Char × β) := arrays.foldl (fun d e => dictSet d e.1 e.2) []

/-- `extract_arrays_for_savez`, src/python/io.rs:153-175. -/
def savezNames (args : List Source) (kwargs : List (List Char × Source)) : List (List Char × Source) :=
  (args.zipIdx.map fun p => ("arr_".toList ++ showNat p.2, p.1)) ++ kwargs

/-- A file system: the contents of every path that exists. -/
abbrev FileSystem := List Char → Option (List UInt8)

/-- Creating or replacing a file. -/
def FileSystem.put (fs : FileSystem) (path : List Char) (bytes : List UInt8) : FileSystem :=
  fun p => if p = path then some bytes else fs p

/-- `savez` and `savez_compressed`, src/ops/io.rs:854-876 and src/python/io.rs:177-207: the file system afterwards, and
whether the call succeeded.  `zip` is the file of an archive. -/
def savez (zip : List Entry → List UInt8) (fs : FileSystem) (path : List Char) (args : List Source)
    (kwargs : List (List Char × Source)) : FileSystem × Bool :=
  let r := writeEntries (savezNames args kwargs) []
  (fs.put path (zip r.1), r.2)

/-- `save`, src/ops/io.rs:371-377 and src/python/io.rs:104-115. -/
def saveNpy (fs : FileSystem) (path : List Char) (a : Source) : FileSystem :=
  fs.put path (writeNpy a.mem a.dtype a.view)

/-- What `load` returns. -/
inductive LoadResult where
  | array (a : Loaded)
  | dict (d : List (List Char × Loaded))
deriving DecidableEq

/-- `load`, src/python/io.rs:117-150.  `unzip` reads the entries of an archive. -/
def load (decode : List UInt8 → Option (List Char)) (unzip : List UInt8 → Option (List Entry)) (fs : FileSystem)
    (path : List Char) : Option LoadResult :=
  (fs path).bind fun bytes =>
  if ".npz".toList.isSuffixOf path then
    (unzip bytes).bind fun es => (loadNpz decode es).map fun l => .dict (loadDict l)
  else (readNpy decode bytes).map fun r => .array r.1

end Rumpy
