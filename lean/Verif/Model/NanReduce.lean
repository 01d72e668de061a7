import Verif.Model.Moments
import Verif.Model.Reduce
/-!
# Model: NaN-skipping reductions (src/ops/array_methods/reductions.rs, src/python/reductions.rs)

A float is `none` for NaN. Sums, products, means and variances are over a field, without infinities; extremes are over a linear
order, whose ends are the infinities.
-/

namespace Rumpy
open Spec

/-! ### One lane: the closures passed to `nan_reduce_axis` -/

/-- The lane of `nansum_axis` and `nanprod_axis`, src/ops/array_methods/reductions.rs:704-714, 729-739. -/
def nanLane (op : α → α → α) (init : α) (l : List (Option α)) : α :=
  l.foldl (fun acc v => v.elim acc (op acc)) init

/-- One round of the loop below. -/
def countStep [Add K] (s : K × Nat) : Option K → K × Nat
  | some x => (s.1 + x, s.2 + 1)
  | none => s

/-- The sum and count loop of `nanmean`, `nanmean_axis` and `nanvar_axis`, src/ops/array_methods/reductions.rs:751-759, 766-775, 806-815. -/
def nanSumCount [Add K] [Zero K] (l : List (Option K)) : K × Nat :=
  l.foldl countStep (0, 0)

/-- The lane of `nanmean_axis`, src/ops/array_methods/reductions.rs:765-777. -/
def nanMeanLane [Field K] (l : List (Option K)) : Option K :=
  let s := nanSumCount l
  if s.2 = 0 then none else some (s.1 / (s.2 : K))

/-- One round of the second loop of `nanvar_axis`, src/ops/array_methods/reductions.rs:823-827. -/
def squareStep [Field K] (mean acc : K) : Option K → K
  | some x => acc + (x - mean) * (x - mean)
  | none => acc

/-- The lane of `nanvar_axis`, src/ops/array_methods/reductions.rs:804-830. -/
def nanVarLane [Field K] (l : List (Option K)) : Option K :=
  let s := nanSumCount l
  if s.2 = 0 then none
  else
    let mean := s.1 / (s.2 : K)
    some (l.foldl (squareStep mean) 0 / (s.2 : K))

/-- One round of the loop below. -/
def foundStep (op : α → α → α) (s : α × Bool) : Option α → α × Bool
  | some x => (op s.1 x, true)
  | none => s

/-- The lane of `nanmin_axis` and `nanmax_axis`, src/ops/array_methods/reductions.rs:861-873, 894-906. -/
def nanExtremeLane (op : α → α → α) (init : α) (l : List (Option α)) : Option α :=
  let s := l.foldl (foundStep op) (init, false)
  if s.2 then some s.1 else none

/-- One round of the loop below: the best value so far and its position. -/
def pickStep (better : α → α → Bool) (s : Option α × Nat) (vj : Option α × Nat) : Option α × Nat :=
  match vj.1 with
  | none => s
  | some x =>
    match s.1 with
    | none => (some x, vj.2)
    | some bv => if better x bv then (some x, vj.2) else s

/-- The lane of `nan_arg_reduce_axis`, src/ops/array_methods/reductions.rs:967-988. -/
def nanArgLane (better : α → α → Bool) (l : List (Option α)) : Nat :=
  (l.zipIdx.foldl (pickStep better) (none, 0)).2

/-! ### Along an axis -/

/-- The input index of `nan_reduce_axis`, src/ops/array_methods/reductions.rs:680-684, with the coordinate that the closure stores. -/
def nanIndex (ndim axis : Nat) (outer : List Nat) (j : Nat) : List Nat :=
  (outer.take (min axis outer.length) ++ [0] ++ if axis < ndim - 1 then outer.drop axis else []).set axis j

/-- `nan_reduce_axis`, src/ops/array_methods/reductions.rs:656-691; `none` is the panic of `remove`. -/
def nanAxis (f : List (Option α) → β) (zero : β) (h : Held (Option α)) (axis : Nat) : Option (Arr β) :=
  if axis < h.view.shape.length then
    let axisLen := h.view.shape.getD axis 0
    let os := h.view.shape.eraseIdx axis
    let outShape := if os.isEmpty then [1] else os
    let outSize := sizeOf outShape
    let blank := List.replicate outSize zero
    if outSize = 0 ∨ axisLen = 0 then some ⟨outShape, blank⟩
    else some ⟨outShape, writes ((odometerAll outShape).zipIdx.map fun io =>
      (io.2, f ((List.range axisLen).map fun j => h.mem (h.view.addr (nanIndex h.view.shape.length axis io.1 j))))) blank⟩
  else none

/-- `nansum_axis` and `nanprod_axis`, src/ops/array_methods/reductions.rs:701-716, 726-741: `float` says that the dtype is float32 or
float64, which have kernels (src/ops/dispatch.rs:779-789). -/
def nanReduceStep (float : Bool) (op : α → α → α) (init zero : α) (h : Held (Option α)) (axis : Nat) : Option (Arr (Option α)) :=
  if float then reduceStep (nanCombine op) (some init) h axis
  else nanAxis (fun l => some (nanLane op init l)) (some zero) h axis

/-- `nanmin_axis` and `nanmax_axis`, src/ops/array_methods/reductions.rs:858-875, 891-908. -/
def nanExtremeStep (float : Bool) (op : α → α → α) (init zero : α) (h : Held (Option α)) (axis : Nat) : Option (Arr (Option α)) :=
  if float then reduceStep (nanCombine op) (some init) h axis
  else nanAxis (nanExtremeLane op init) (some zero) h axis

/-- `nanmean_axis`, src/ops/array_methods/reductions.rs:764-778. -/
def nanMeanStep [Field K] (h : Held (Option K)) (axis : Nat) : Option (Arr (Option K)) := nanAxis nanMeanLane (some 0) h axis

/-- `nanvar_axis`, src/ops/array_methods/reductions.rs:803-831. -/
def nanVarStep [Field K] (h : Held (Option K)) (axis : Nat) : Option (Arr (Option K)) := nanAxis nanVarLane (some 0) h axis

/-- `nanargmin_axis` and `nanargmax_axis`, src/ops/array_methods/reductions.rs:932-934, 958-960. -/
def nanArgStep (better : α → α → Bool) (h : Held (Option α)) (axis : Nat) : Option (Arr Nat) := nanAxis (nanArgLane better) 0 h axis

/-! ### Whole arrays -/

/-- `nanmean`, src/ops/array_methods/reductions.rs:744-761. -/
def nanMeanAll [Field K] (h : Held (Option K)) : Option K :=
  if sizeOf h.view.shape = 0 then none else nanMeanLane (h.view.addrs.map h.mem)

/-- One round of the loop of `nanvar`, src/ops/array_methods/reductions.rs:792-797. -/
def squareCountStep [Field K] (mean : K) (s : K × Nat) : Option K → K × Nat
  | some x => (s.1 + (x - mean) * (x - mean), s.2 + 1)
  | none => s

/-- `nanvar`, src/ops/array_methods/reductions.rs:781-800. -/
def nanVarAll [Field K] (h : Held (Option K)) : Option K :=
  match nanMeanAll h with
  | none => none
  | some mean =>
    let s := (h.view.addrs.map h.mem).foldl (squareCountStep mean) (0, 0)
    some (s.1 / (s.2 : K))

/-- One round of the loop below. -/
def betterStep (better : α → α → Bool) (s : α × Option Nat) (vj : Option α × Nat) : α × Option Nat :=
  match vj.1 with
  | none => s
  | some x => if better x s.1 then (x, some vj.2) else s

/-- `nanargmin` and `nanargmax`, src/ops/array_methods/reductions.rs:912-929, 938-955: `init` is the infinity that no number is
better than. -/
def nanArgAll (better : α → α → Bool) (init : α) (h : Held (Option α)) : Option Nat :=
  if sizeOf h.view.shape = 0 then none
  else ((h.view.addrs.map h.mem).zipIdx.foldl (betterStep better) (init, none)).2

/-! ### Python -/

/-- What `nanargmin` and `nanargmax` return. -/
inductive ArgReduced where
  | scalar (k : Nat)
  | array (a : Arr Nat)
  deriving DecidableEq

/-- `nanargmin` and `nanargmax`, src/python/reductions.rs:378-394, 399-415. -/
def nanArg (better : α → α → Bool) (init : α) (h : Held (Option α)) (axis : Option Int) : Outcome ArgReduced :=
  match axis with
  | none =>
    match nanArgAll better init h with
    | some k => .ok (.scalar k)
    | none => .error
  | some ax =>
    match checkedAxis h.view.shape.length ax with
    | none => .error
    | some ax =>
      match nanArgStep better h ax with
      | none => .panic
      | some a => .ok (.array a)

end Rumpy
