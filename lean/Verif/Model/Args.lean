import Verif.Spec.Args
import Verif.Model.Matmul
import Verif.Model.Select
import Verif.Model.Cast
import Verif.Model.Calendar
/-!
# Model: the arguments of `pad`, `tile`, `tensordot` and `take` (src/python/shape.rs, linalg.rs, indexing.rs)

`extract` of PyO3: an integer fits `usize` or `i64` or is refused; a `Vec` comes from a tuple or list all of whose items
fit; a pair comes from a tuple of two.  `none`: an exception.
-/

namespace Rumpy
open Spec

/-- `extract::<usize>`. -/
def extractUsize : PyArg → Option Nat
  | .int n => if 0 ≤ n ∧ n < 2 ^ 64 then some n.toNat else none
  | _ => none

/-- `extract::<i64>`. -/
def argI64 : PyArg → Option Int
  | .int n => if -2 ^ 63 ≤ n ∧ n < 2 ^ 63 then some n else none
  | _ => none

/-- The items of a sequence. -/
def seqItems : PyArg → Option (List PyArg)
  | .tuple l | .list l => some l
  | _ => none

/-- The first two items of a tuple as `usize`, src/python/shape.rs:684-685 and 691-692. -/
def pairOf (l : List PyArg) : Option (Nat × Nat) :=
  match l with
  | x :: y :: _ => (extractUsize x).bind fun b => (extractUsize y).map fun a => (b, a)
  | _ => none

/-- An item of the tuple given as `pad_width`, src/python/shape.rs:688-698. -/
def padItem : PyArg → Option (Nat × Nat)
  | .tuple l => pairOf l
  | x => (extractUsize x).map fun n => (n, n)

/-- The widths of `pad`, src/python/shape.rs:680-704. -/
def padSpec (ndim : Nat) : PyArg → Option (List (Nat × Nat))
  | .tuple l =>
    if l.length = 2 then (pairOf l).map (List.replicate ndim)
    else l.mapM padItem
  | x => (extractUsize x).map fun n => List.replicate ndim (n, n)

/-- The widths `pad` goes on with, src/array/manipulation.rs:1196-1199. -/
def padWidths (ndim : Nat) (arg : PyArg) : Option (List (Nat × Nat)) :=
  (padSpec ndim arg).bind fun w => if w.length ≠ ndim then none else some w

/-- The repetitions of `tile`, src/python/shape.rs:605-615. -/
def tileReps : PyArg → Option (List Nat)
  | .tuple l | .list l => l.mapM extractUsize
  | x => (extractUsize x).map fun n => [n]

/-- An `i64` axis as `usize`, src/python/linalg.rs:99-104; a negative number cast to `usize` is near 2^64. -/
def dotAxis (ndim : Nat) (x : Int) : Nat := ((if x < 0 then (ndim : Int) + x else x) % 2 ^ 64).toNat

/-- The axes of `tensordot`, src/python/linalg.rs:88-117. -/
def dotAxes (m n : Nat) (arg : Option PyArg) : Option (List Nat × List Nat) :=
  let lastFirst := fun (k : Nat) => ((List.range (m - (m - k))).map (m - k + ·), List.range k)
  match arg with
  | none => some (lastFirst 2)
  | some arg =>
    match extractUsize arg with
    | some k => some (lastFirst k)
    | none =>
      match arg with
      | .tuple [x, y] => do
        let xs ← seqItems x
        let ys ← seqItems y
        match xs.mapM extractUsize, ys.mapM extractUsize with
        | some p, some q => some (p, q)
        | _, _ => do
          let p ← xs.mapM argI64
          let q ← ys.mapM argI64
          some (p.map (dotAxis m), q.map (dotAxis n))
      | _ => none

/-- `tensordot` of the module, src/python/linalg.rs:87-122. -/
def tensordotFn [Zero α] [Add α] [Mul α] (a b : Held α) (arg : Option PyArg) : Option (Option (Held α)) :=
  (dotAxes a.view.shape.length b.view.shape.length arg).bind fun pq => tensordot a b pq.1 pq.2

/-- `read_i64(..).unwrap_or(0)`, src/ops/indexing.rs:42: src/array/dtype/macros.rs:191-193, 373-375, 575-577, bool.rs:118-120,
float16.rs:183-185, datetime64.rs:252-254, 426-428, and `None` by mod.rs:269-272 for the rest. -/
def readIndex : Elem → Int
  | .bool b => if b then 1 else 0
  | .int n => wrap64 n
  | .flt x => fltToInt (-2 ^ 63) (2 ^ 63 - 1) x
  | _ => 0

/-- `take` of the module with an array of indices, src/python/indexing.rs:16-35: the elements of the array of indices in
row-major order.  The axis is extracted as `usize`. -/
def takeFn (zero : α) (mem : Int → α) (v : View) (idx : List Elem) (axis : Option Int) : Option (Arr α) :=
  match axis with
  | none => take zero mem v (idx.map readIndex) none
  | some k => (extractUsize (.int k)).bind fun k => take zero mem v (idx.map readIndex) (some k)

end Rumpy
