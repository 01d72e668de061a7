import Verif.Model.Copy
import Verif.Model.Rearrange
import Verif.Model.Search
import Mathlib.Algebra.Order.Floor.Defs
import Mathlib.Data.Rat.Floor
/-!
# Model: ranges, grids, triangles and diagonals

Floats are exact rationals (no rounding); `store` is `write_f64` of the result's dtype.
-/

namespace Rumpy
open Spec

/-- `arange`, src/array/constructors.rs:115-132.  For a zero step the quotient is infinite (the allocation
panics), minus infinity or NaN (`max(0.0)` gives 0). -/
def arange (store : Rat → α) (start stop step : Rat) : Outcome (List α) :=
  if step = 0 then if stop > start then .panic else .ok []
  else
    let n := (Int.ceil ((stop - start) / step)).toNat
    .ok ((List.range n).map fun i : Nat => store (start + i * step))

/-- The Python-level `arange`, src/python/creation.rs:38-50, without a dtype: the result is int64 (stores
truncate towards zero). -/
def pyArange (startOrStop : Rat) (stop step : Option Rat) : Outcome (List Int) :=
  let trunc := fun x : Rat => if 0 ≤ x then ⌊x⌋ else ⌈x⌉
  match stop with
  | some stop => arange trunc startOrStop stop (step.getD 1)
  | none => arange trunc 0 startOrStop (step.getD 1)

/-- `linspace`, src/array/constructors.rs:135-154. -/
def linspace (store : Rat → α) (start stop : Rat) (num : Nat) : List α :=
  let step := if num > 1 then (stop - start) / (num - 1 : Nat) else 0
  (List.range num).map fun i : Nat => store (start + i * step)

/-- `eye`, src/array/constructors.rs:157-173. -/
def eye (n : Nat) (one zero : α) : Arr α :=
  ⟨[n, n], writes ((List.range n).map fun i => (i * n + i, one)) (List.replicate (n * n) zero)⟩

/-- `tri`, src/array/manipulation.rs:533-553. -/
def tri (n m : Nat) (k : Int) (one zero : α) : Arr α :=
  ⟨[n, m], writes ((List.range n).flatMap fun i : Nat => (List.range m).flatMap fun j : Nat =>
    if (j : Int) ≤ (i : Int) + k then [(i * m + j, one)] else []) (List.replicate (n * m) zero)⟩

/-- `extract_triangle`, src/array/manipulation.rs:556-618. -/
def extractTriangle (mem : Int → α) (v : View) (k : Int) (lower : Bool) (zero : α) : Option (Arr α) :=
  match v.shape with
  | [n, m] =>
    if n = 0 ∨ m = 0 then some ⟨[n, m], List.replicate (n * m) zero⟩
    else if v.cFlag then
      some ⟨[n, m], writes ((List.range n).flatMap fun i : Nat =>
        let startCol := if lower then 0 else min (max ((i : Int) + k) 0).toNat m
        let endCol := if lower then min (max ((i : Int) + k + 1) 0).toNat m else m
        if endCol > startCol then (List.range (endCol - startCol)).map fun c : Nat =>
          (i * m + startCol + c, mem (v.offset + (i * m + startCol + c : Nat) * v.item))
        else []) (List.replicate (n * m) zero)⟩
    else
      some ⟨[n, m], writes ((List.range n).flatMap fun i : Nat => (List.range m).flatMap fun j : Nat =>
        if (if lower then decide ((j : Int) ≤ (i : Int) + k) else decide ((j : Int) ≥ (i : Int) + k)) then
          [(i * m + j, mem (v.addr [i, j]))] else []) (List.replicate (n * m) zero)⟩
  | _ => none

/-- `tril`, src/array/manipulation.rs:621-623. -/
def tril (mem : Int → α) (v : View) (k : Int) (zero : α) : Option (Arr α) := extractTriangle mem v k true zero

/-- `triu`, src/array/manipulation.rs:626-628. -/
def triu (mem : Int → α) (v : View) (k : Int) (zero : α) : Option (Arr α) := extractTriangle mem v k false zero

/-- `diagflat`, src/array/manipulation.rs:632-657. -/
def diagflat (mem : Int → α) (v : View) (k : Int) (zero : α) : Arr α :=
  let size := sizeOf v.shape
  let n := size + k.natAbs
  if size = 0 then ⟨[n, n], List.replicate (n * n) zero⟩
  else ⟨[n, n], writes (v.addrs.zipIdx.map fun oi =>
    let rc := if k ≥ 0 then (oi.2, oi.2 + k.toNat) else (oi.2 + (-k).toNat, oi.2)
    (rc.1 * n + rc.2, mem oi.1)) (List.replicate (n * n) zero)⟩

/-- Stores of `diag` (src/ops/linalg.rs:390-420): byte position in the result and the element read.  Both
branches store an `f64` at `8` bytes times the position, whatever the item size is. -/
def diagStores (mem : Int → α) (v : View) : Option (List Nat × List (Nat × α)) :=
  match v.shape with
  | [n] => some ([n, n], (List.range n).map fun i => ((i * n + i) * 8, mem (v.addr [i])))
  | [n, m] => some ([min n m], (List.range (min n m)).map fun i => (i * 8, mem (v.addr [i, i])))
  | _ => none

/-- `diag` for an item size of 8: the stores go to whole elements.  `raw` is what the dtype reads back from the
bytes of the stored `f64`: the same value for float64, other values for int64. -/
def diagArr (raw : α → α) (mem : Int → α) (v : View) (zero : α) : Option (Arr α) :=
  (diagStores mem v).map fun r =>
    ⟨r.1, writes (r.2.map fun s => (s.1 / 8, raw s.2)) (List.replicate (sizeOf r.1) zero)⟩

/-- The bits of a positive integer below 2^53 stored as an `f64`, read back as an integer: what `diag` leaves
in an int64 array. -/
def f64Bits (n : Nat) : Int :=
  if n = 0 then 0 else ((1023 + n.log2) * 2 ^ 52 + (n * 2 ^ (52 - n.log2) - 2 ^ 52) : Nat)

/-- `trace`, src/ops/linalg.rs:65-75. -/
def traceOf [Add α] [Zero α] (mem : Int → α) (v : View) : Option α :=
  match v.shape with
  | [n, m] => some ((List.range (min n m)).foldl (fun sum i => sum + mem (v.addr [i, i])) 0)
  | _ => none

/-- `indices`, src/array/manipulation.rs:712-788.  `fast`: dtype int64 or float64. -/
def indicesArr (fast : Bool) (store : Nat → α) (dims : List Nat) (zero : α) : Arr α :=
  let ndim := dims.length
  if ndim = 0 then ⟨[0], []⟩
  else
    let total := sizeOf dims
    let shape := ndim :: dims
    let blank := List.replicate (sizeOf shape) zero
    if total = 0 then ⟨shape, blank⟩
    else if fast then
      ⟨shape, writes ((List.range ndim).flatMap fun dim =>
        let base := dim * total
        let stride := sizeOf (dims.drop (dim + 1))
        let rep := sizeOf (dims.take dim)
        let dimSize := dims.getD dim 0
        (List.range rep).flatMap fun r => (List.range dimSize).flatMap fun idx => (List.range stride).map fun s =>
          (base + r * dimSize * stride + idx * stride + s, store idx)) blank⟩
    else
      ⟨shape, writes ((List.range ndim).flatMap fun dim =>
        (odometerAll dims).zipIdx.map fun ii => (dim * total + ii.2, store (ii.1.getD dim 0))) blank⟩

/-- `meshgrid`, src/array/manipulation.rs:661-708.  Each input comes with the `eight` flag of `copyArr`. -/
def meshgrid (arrays : List (Bool × Held α)) (xy : Bool) (zero : α) : Option (List (Arr α)) :=
  if arrays.any fun a => decide (a.2.view.shape.length ≠ 1) then none
  else
    let ndim := arrays.length
    let sizes := arrays.map fun a => sizeOf a.2.view.shape
    let out := if xy && decide (ndim ≥ 2) then (sizes.set 0 (sizes.getD 1 0)).set 1 (sizes.getD 0 0) else sizes
    arrays.zipIdx.mapM fun ai =>
      let vary := if xy && decide (ndim ≥ 2) then (if ai.2 = 0 then 1 else if ai.2 = 1 then 0 else ai.2) else ai.2
      let bc := (List.replicate ndim 1).set vary (sizeOf ai.1.2.view.shape)
      do
        let reshaped ← ai.1.2.view.reshape bc
        let b ← reshaped.broadcastTo out
        return copyArr ai.1.1 ai.1.2.mem b zero

/-- One index array of `fromfunction`, src/python/creation.rs:261-273. -/
def functionIndex (shape : List Nat) (dim : Nat) : Arr Nat :=
  ⟨shape, (odometerAll shape).map fun idx => idx.getD dim 0⟩

end Rumpy
