import Verif.Model.Copy
import Verif.Model.Cumulative
import Verif.Model.Concat
import Verif.Model.Float
/-!
# Model: repeat, tile, pad, roll, rot90, append, insert, delete (src/array/manipulation.rs:909-1413)

Elements that are moved with `read_f64`/`write_f64` pass through `conv`; `memcpy` does not use it.
`eight` says whether the dtype is `float64` or `int64` (see `copyArr`), and `zero` is what `zeros`
fills a new array with.
-/

namespace Rumpy
open Spec

/-- The common loop over all destination indices: `linear_index` for the store, `src` for the
element, e.g. src/array/manipulation.rs:1044-1074. -/
def gatherLoop (out : List Nat) (src : List Nat → α) (zero : α) : List α :=
  writes ((odometerAll out).map fun d => (linearIndex d out, src d)) (List.replicate (sizeOf out) zero)

/-- `(ndim as isize + ax) as usize` for a negative axis, then the range check
(src/array/manipulation.rs:943-947).  A value still negative is a huge `usize`. -/
def wrapAxis (ndim : Nat) (ax : Int) : Option Nat :=
  let a := if ax < 0 then (ndim : Int) + ax else ax
  if 0 ≤ a ∧ a < ndim then some a.toNat else none

/-- `repeat`, src/array/manipulation.rs:911-986. -/
def repeatArr (conv : α → α) (mem : Int → α) (v : View) (repeats : Nat) (axis : Option Int) (zero : α) :
    Option (Arr α) :=
  if repeats = 0 then some ⟨[0], []⟩
  else match axis with
  | none =>
    let n := sizeOf v.shape * repeats
    some ⟨[n], writes ((v.addrs.flatMap fun p => List.replicate repeats (conv (mem p))).zipIdx.map fun xi => (xi.2, xi.1))
      (List.replicate n zero)⟩
  | some ax =>
    match wrapAxis v.shape.length ax with
    | none => none
    | some axis =>
      let out := v.shape.modify axis (· * repeats)
      some ⟨out, writes ((odometerAll v.shape).flatMap fun idx => (List.range repeats).map fun r =>
          (linearIndex (idx.set axis (idx.getD axis 0 * repeats + r)) out, conv (mem (v.addr idx))))
        (List.replicate (sizeOf out) zero)⟩

/-- Padding on the left with ones, src/array/manipulation.rs:1000-1011. -/
def onesLeft (n : Nat) (s : List Nat) : List Nat := List.replicate (n - s.length) 1 ++ s

/-- `tile`, src/array/manipulation.rs:989-1077. -/
def tileArr (eight : Bool) (conv : α → α) (mem : Int → α) (v : View) (reps : List Nat) (zero : α) : Arr α :=
  if reps.isEmpty || reps.all (· == 1) then copyArr eight mem v zero
  else
    let n := max v.shape.length reps.length
    let padded := onesLeft n v.shape
    let out := List.zipWith (· * ·) padded (onesLeft n reps)
    if v.shape.length = 1 ∧ reps.length = 1 ∧ v.cFlag then
      let size := sizeOf v.shape
      ⟨out, writes ((List.range (reps.getD 0 0)).flatMap fun i => (List.range size).map fun (k : Nat) =>
        (i * size + k, mem (v.offset + k * v.item))) (List.replicate (sizeOf out) zero)⟩
    else
      ⟨out, gatherLoop out (fun d =>
        let src := List.zipWith (· % ·) d padded
        let src := if v.shape.length < n then src.drop (n - v.shape.length) else src
        conv (mem (v.addr src))) zero⟩

/-- Shape of `pad`, src/array/manipulation.rs:1202-1205. -/
def paddedShape (s : List Nat) (w : List (Nat × Nat)) : List Nat :=
  (s.zip w).map fun p => p.1 + p.2.1 + p.2.2

/-- `copy_region`, src/array/manipulation.rs:1253-1283. -/
def copyRegion (conv : α → α) (mem : Int → α) (v : View) (w : List (Nat × Nat)) (out : List Nat) (d : List α) : List α :=
  writes ((odometerAll v.shape).map fun s =>
    (linearIndex (List.zipWith (fun i p => i + p.1) s w) out, conv (mem (v.addr s)))) d

/-- Source index of the `edge` mode, src/array/manipulation.rs:1230-1238. -/
def edgeIndex : List Nat → List (Nat × Nat) → List Nat → List Nat
  | d :: ds, p :: ps, n :: ns =>
    (if d < p.1 then 0 else if d ≥ p.1 + n then n - 1 else d - p.1) :: edgeIndex ds ps ns
  | _, _, _ => []

/-- Padding modes the code knows, src/array/manipulation.rs:1207-1249. -/
inductive PadMode where
  | constant
  | edge
  | other
deriving DecidableEq, Repr

/-- `pad`, src/array/manipulation.rs:1195-1250; `c` is the constant after `full` has stored it. -/
def padArr (conv : α → α) (mem : Int → α) (v : View) (w : List (Nat × Nat)) (mode : PadMode) (c zero : α) :
    Option (Arr α) :=
  if w.length ≠ v.shape.length then none
  else
    let out := paddedShape v.shape w
    match mode with
    | .constant => some ⟨out, copyRegion conv mem v w out (List.replicate (sizeOf out) c)⟩
    | .edge => some ⟨out, gatherLoop out (fun d => conv (mem (v.addr (edgeIndex d w v.shape)))) zero⟩
    | .other => none

/-- An array value: a memory and a view of it. -/
structure Held (α : Type u) where
  mem : Int → α
  view : View

/-- What a user sees of it. -/
def Held.nd (h : Held α) : Nd α := h.view.denote h.mem

/-- A freshly allocated array. -/
def Held.of (a : Arr α) (item : Nat) (zero : α) : Held α := ⟨a.mem item zero, a.view item⟩

/-- `ravel_arr`, src/array/manipulation.rs:1080-1087.  The second `reshape` is of a fresh array,
which is C-contiguous, so it succeeds; its failure would be a panic. -/
def ravelArr (eight : Bool) (h : Held α) (zero : α) : Option (Held α) :=
  let size := sizeOf h.view.shape
  match h.view.reshape [size] with
  | some w => some ⟨h.mem, w⟩
  | none =>
    let c := Held.of (copyArr eight h.mem h.view zero) h.view.item zero
    (c.view.reshape [size]).map fun w => ⟨c.mem, w⟩

/-- `((shift % n) + n) as usize % n`, src/array/manipulation.rs:1300, 1352; Rust's `%` truncates. -/
def normShift (shift : Int) (n : Nat) : Nat := (Int.tmod shift n + n).toNat % n

/-- `roll`, src/array/manipulation.rs:1287-1382. `none` is the panic of `ravel_arr`. -/
def rollArr (eight : Bool) (conv : α → α) (h : Held α) (shift : Int) (axis : Option Int) (zero : α) : Option (Arr α) :=
  let v := h.view
  let copy := copyArr eight h.mem v zero
  match axis with
  | none => do
    let flat ← ravelArr eight h zero
    let size := sizeOf flat.view.shape
    if size = 0 then return copy
    let s := normShift shift size
    if s = 0 then return copy
    let item := flat.view.item
    let split := size - s
    return ⟨v.shape, writes (((List.range s).map fun (k : Nat) => (k, flat.mem (flat.view.offset + (split + k : Nat) * item)))
      ++ ((List.range split).map fun (k : Nat) => (s + k, flat.mem (flat.view.offset + k * item))))
      (List.replicate (sizeOf v.shape) zero)⟩
  | some ax =>
    match wrapAxis v.shape.length ax with
    | none => some copy
    | some axis =>
      let n := v.shape.getD axis 0
      if n = 0 then some copy
      else
        let s := normShift shift n
        if s = 0 then some copy
        else some ⟨v.shape, gatherLoop v.shape (fun d =>
          conv (h.mem (v.addr (d.set axis ((d.getD axis 0 + n - s) % n))))) zero⟩

/-- `rot90`, src/array/manipulation.rs:1386-1413. -/
def View.rot90 (v : View) (k : Int) (axis0 axis1 : Nat) : Option View :=
  let k := (Int.tmod k 4 + 4).toNat % 4
  let axes := View.swapOrder v.shape.length axis0 axis1
  if k = 0 then some v
  else if k = 1 then do (← v.flip axis1).transposeAxes axes
  else if k = 2 then do (← v.flip axis0).flip axis1
  else do (← v.flip axis0).transposeAxes axes

/-- The Python-level `rot90`, src/python/shape.rs:723-742. -/
def View.pyRot90 (v : View) (k : Int) (axis0 axis1 : Int) : Option View :=
  if v.shape.length < 2 then none
  else match wrapAxis v.shape.length axis0, wrapAxis v.shape.length axis1 with
    | some a, some b => if a = b then none else v.rot90 k a b
    | _, _ => none

/-- `append`, src/array/manipulation.rs:1091-1105. -/
def appendArr (eight : Bool) (a b : Held α) (axis : Option Int) (zero : α) : Option (Arr α) :=
  match axis with
  | none => do
    let x ← ravelArr eight a zero
    let y ← ravelArr eight b zero
    concatenate zero [x.nd, y.nd] 0
  | some ax =>
    match wrapAxis a.view.shape.length ax with
    | none => none
    | some axis => concatenate zero [a.nd, b.nd] axis

/-- `index < 0 ? max(n + index + 1, 0) : index`, then `min(n)`, src/array/manipulation.rs:1115-1116. -/
def insertIdxOf (n : Nat) (index : Int) : Nat :=
  min (if index < 0 then max ((n : Int) + index + 1) 0 else index).toNat n

/-- A zero-length vector, `RumpyArray::zeros(vec![0], ..)`. -/
def Held.empty (item : Nat) (zero : α) : Held α := Held.of ⟨[0], []⟩ item zero

/-- `slice_axis` on a held array. -/
def Held.sliceAxis (h : Held α) (axis : Nat) (start stop step : Int) : Option (Held α) :=
  (h.view.sliceAxis axis start stop step).map fun w => ⟨h.mem, w⟩

/-- `insert`, src/array/manipulation.rs:1109-1147.  `none` is the error of the code, or the panic of the
division `arr.size() / axis_len`. -/
def insertArr (eight : Bool) (a : Held α) (index : Int) (vals : Held α) (axis : Option Int) (zero : α) :
    Option (Arr α) :=
  match axis with
  | none => do
    let flat ← ravelArr eight a zero
    let n := sizeOf flat.view.shape
    let idx := insertIdxOf n index
    let before ← if idx > 0 then flat.sliceAxis 0 0 idx 1 else some (Held.empty a.view.item zero)
    let after ← if idx < n then flat.sliceAxis 0 idx n 1 else some (Held.empty a.view.item zero)
    let fv ← ravelArr eight vals zero
    concatenate zero [before.nd, fv.nd, after.nd] 0
  | some ax =>
    match wrapAxis a.view.shape.length ax with
    | none => none
    | some axis => do
      let n := a.view.shape.getD axis 0
      let idx := insertIdxOf n index
      let before ← a.sliceAxis axis 0 idx 1
      let after ← a.sliceAxis axis idx n 1
      if n = 0 then none
      else
        let valShape := a.view.shape.set axis (sizeOf vals.view.shape / max (sizeOf a.view.shape / n) 1)
        let vr : Held α := ⟨vals.mem, (vals.view.reshape valShape).getD vals.view⟩
        concatenate zero [before.nd, vr.nd, after.nd] axis

/-- `delete`, src/array/manipulation.rs:1151-1191. The result is the input itself (`Held`), its flattened
form, or a new array. -/
def deleteArr (eight : Bool) (a : Held α) (index : Int) (axis : Option Int) (zero : α) : Option (Held α) :=
  match axis with
  | none => do
    let flat ← ravelArr eight a zero
    let n := sizeOf flat.view.shape
    if n = 0 then return flat
    let idx := (if index < 0 then max ((n : Int) + index) 0 else index).toNat
    if idx ≥ n then return flat
    let before ← if idx > 0 then flat.sliceAxis 0 0 idx 1 else some (Held.empty a.view.item zero)
    let after ← if idx + 1 < n then flat.sliceAxis 0 (idx + 1 : Nat) n 1 else some (Held.empty a.view.item zero)
    let r ← concatenate zero [before.nd, after.nd] 0
    return Held.of r a.view.item zero
  | some ax =>
    match wrapAxis a.view.shape.length ax with
    | none => none
    | some axis => do
      let n := a.view.shape.getD axis 0
      if n = 0 then return a
      let idx := (if index < 0 then max ((n : Int) + index) 0 else index).toNat
      if idx ≥ n then return a
      let before ← a.sliceAxis axis 0 idx 1
      let after ← a.sliceAxis axis (idx + 1 : Nat) n 1
      let r ← concatenate zero [before.nd, after.nd] axis
      return Held.of r a.view.item zero

end Rumpy
