import Verif.Spec.NestedList
import Verif.Model.Rearrange
import Verif.Model.Float
import Verif.Model.Calendar

/-!
# Model: `array` of Python lists of numbers, `tolist` and `item`

`float16` and `float32` are left out: a float element is the exact value.  Elements of an array
are Python numbers of the kind that belongs to its dtype.
-/

namespace Rumpy
open Spec

/-- pyo3's `extract::<i64>` (by contract): truth values are Python integers, floats are refused. -/
def extractI64 : PyNum → Option Int
  | .bool b => some (if b then 1 else 0)
  | .int i => if -2 ^ 63 ≤ i ∧ i < 2 ^ 63 then some i else none
  | _ => none

/-- pyo3's `extract::<f64>` (by contract): integers are rounded to the nearest float, those beyond
the floats are refused. -/
def extractF64 : PyNum → Option Rat
  | .bool b => some (if b then 1 else 0)
  | .int i => if (intToF64 i).natAbs < 2 ^ 1024 then some (intToF64 i : Rat) else none
  | .float x => some x
  | .complex .. => none

/-- `val as T` of an `i64`: the low bits. -/
def wrapInt (signed : Bool) (bits : Nat) (i : Int) : Int := if signed then i.bmod (2 ^ bits) else i % 2 ^ bits

/-- `val as T` of an `f64`: truncation, saturating. -/
def saturateInt (signed : Bool) (bits : Nat) (x : Rat) : Int :=
  let t := x.num.tdiv x.den
  if signed then f64ToInt (-2 ^ (bits - 1)) (2 ^ (bits - 1) - 1) t else f64ToInt 0 (2 ^ bits - 1) t

/-- `write_i64`: src/array/dtype/macros.rs:377-380 and 579-582, src/array/dtype/bool.rs:122-125.
(`from_list` calls it for integer dtypes only; complex numbers have the default, which stores
nothing.) -/
def storeI64 : NumKind → Int → PyNum
  | .bool, i => .bool (i ≠ 0)
  | .int signed bits, i => .int (wrapInt signed bits i)
  | .float, i => .float (intToF64 i)
  | .complex, _ => .complex 0 0

/-- `write_f64`: src/array/dtype/macros.rs:182-185, 364-367 and 566-569,
src/array/dtype/bool.rs:109-112, src/array/dtype/complex128.rs:406-409. -/
def storeF64 : NumKind → Rat → PyNum
  | .bool, x => .bool (x ≠ 0)
  | .int signed bits, x => .int (saturateInt signed bits x)
  | .float, x => .float x
  | .complex, x => .complex x 0

/-- `is_integer`, src/array/dtype/mod.rs:172-175. -/
def isIntKind : NumKind → Bool
  | .int .. => true
  | _ => false

mutual
/-- `infer_dtype_from_list` of the first item. -/
def inferKindItem : PyData → NumKind
  | .num (.bool _) => .bool
  | .num (.int _) => .int true 64
  | .num (.float _) => .float
  | .num (.complex ..) => .float
  | .list l => inferKind l
/-- `infer_dtype_from_list`, src/python/creation.rs:432-462, for lists of numbers. -/
def inferKind : List PyData → NumKind
  | [] => .float
  | d :: _ => inferKindItem d
end

mutual
/-- One item of `flatten_nested_list`: a number has no axes. -/
def flatOne (ex : PyNum → Option β) : PyData → Option (List Nat × List β)
  | .num x => (ex x).map fun v => ([], [v])
  | .list l => (flatMany ex l).map fun r => (l.length :: r.1, r.2)
/-- The loop of `flatten_nested_list`, src/python/creation.rs:596-613, and
`flatten_nested_list_i64`, src/python/creation.rs:616-633: the axes after the first (those of the
first item that is a list), and the numbers; `none` is the exception of `extract`. -/
def flatMany (ex : PyNum → Option β) : List PyData → Option (List Nat × List β)
  | [] => some ([], [])
  | d :: r => (flatOne ex d).bind fun a => (flatMany ex r).map fun b => (if a.1 = [] then b.1 else a.1, a.2 ++ b.2)
end

/-- `item.extract` of an item of a list that may be a list itself. -/
def extractItem (ex : PyNum → Option β) : PyData → Option β
  | .num x => ex x
  | .list _ => none

/-- `from_vec_with_shape`, src/array/constructors.rs:47-50, and `from_vec_i64_with_shape`,
src/array/constructors.rs:72-75: the new one-dimensional array takes the shape if that has as many
elements (it is contiguous, so this is the only condition of `reshape`) and stays as it is
otherwise. -/
def shapedOr (shape : List Nat) (data : List β) : Arr β :=
  if Spec.size shape = data.length then ⟨shape, data⟩ else ⟨[data.length], data⟩

/-- `from_list`, src/python/creation.rs:495-593, for lists of numbers and numeric dtypes. -/
def fromPyList (dtype : Option NumKind) (l : List PyData) : Option (NumKind × Arr PyNum) :=
  let kind := dtype.getD (inferKind l)
  match l with
  | [] => some (kind, ⟨[0], []⟩)
  | .list _ :: _ =>
    match (if isIntKind kind then flatMany extractI64 l else none) with
    | some (s, data) => some (kind, shapedOr (l.length :: s) (data.map (storeI64 kind)))
    | none => (flatMany extractF64 l).map fun r => (kind, shapedOr (l.length :: r.1) (r.2.map (storeF64 kind)))
  | .num _ :: _ =>
    match (if isIntKind kind then l.mapM (extractItem extractI64) else none) with
    | some data => some (kind, ⟨[data.length], data.map (storeI64 kind)⟩)
    | none => (l.mapM (extractItem extractF64)).map fun data => (kind, ⟨[data.length], data.map (storeF64 kind)⟩)

/-- `array_impl`, src/python/creation.rs:313-348, for a number (which is refused) and for lists. -/
def arrayOfPy (dtype : Option NumKind) : PyData → Option (NumKind × Arr PyNum)
  | .num _ => none
  | .list l => fromPyList dtype l

/-- `array_impl`, src/python/creation.rs:337-343, for an iterable that is no list, such as a tuple
or a range. -/
def arrayOfIterable (dtype : Option NumKind) (items : List PyData) : Option (NumKind × Arr PyNum) :=
  (items.mapM (extractItem extractF64)).map fun data =>
    (dtype.getD .float, ⟨[data.length], data.map (storeF64 (dtype.getD .float))⟩)

/-- `read_f64(..).unwrap_or(0.0)`: src/array/dtype/macros.rs:187-189, 369-371 and 571-573,
src/array/dtype/bool.rs:114-116, src/array/dtype/complex128.rs:411-414. -/
def loadF64 : PyNum → Rat
  | .bool b => if b then 1 else 0
  | .int i => (intToF64 i : Rat)
  | .float x => x
  | .complex .. => 0

/-- The base case of `build_list`, src/ops/mod.rs:285-298.  `read as i64` changes only `uint64`
numbers. -/
def listLeaf : PyNum → PyNum
  | .int i => .int (wrap64 i)
  | x => .float (loadF64 x)

/-- `build_list`, src/ops/mod.rs:277-309: `dims` are the axes from `depth` on, `idx` the indices of
the axes before. -/
def buildList (read : List Nat → PyNum) : List Nat → List Nat → PyData
  | [], idx => .num (read idx)
  | n :: s, idx => .list ((List.range n).map fun i => buildList read s (idx ++ [i]))

/-- `to_pylist`, src/ops/mod.rs:274-314, and `tolist`, src/python/pyarray/mod.rs:421-423. -/
def toPyList (h : Held PyNum) : PyData :=
  buildList (fun idx => listLeaf (h.mem (h.view.addr idx))) h.view.shape []

/-- `item`, src/python/pyarray/mod.rs:426-433, with `get_element`, src/array/mod.rs:144-152. -/
def itemOf (h : Held PyNum) : Option Rat :=
  if Spec.size h.view.shape ≠ 1 then none
  else some (loadF64 (h.mem (h.view.addr (List.replicate h.view.shape.length 0))))

end Rumpy
