import Verif.Model.Copy
import Verif.Model.ArgReduce
import Verif.Spec.Sort
import Mathlib.Data.List.Sort
/-!
# Model: sort, argsort, lexsort, partition, unique (src/ops/array_methods/sorting.rs) and the
in-place quickselect (src/python/pyarray/mod.rs)

The standard library's stable sort (`slice::sort_by`) is `List.insertionSort`: for a total
preorder the stable sorted arrangement is unique, so the algorithm does not matter.  With NaN the
comparison used by the code is not a preorder and the standard library promises nothing (newer
versions may panic); NaN is outside this model.  `rd` is `read_f64`, `wr` is `write_f64`, and
`key` orders the values read (it identifies `0.0` and `-0.0`).
-/

namespace Rumpy
open Spec

/-- `sort_by(|a, b| a.0.partial_cmp(&b.0)...)` on pairs (value, position),
src/ops/array_methods/sorting.rs:171, 231, 82. -/
def sortPairs [LinearOrder κ] (key : φ → κ) (l : List (φ × Nat)) : List (φ × Nat) :=
  l.insertionSort fun a b => key a.1 ≤ key b.1

/-- The loop over lanes of `sort` and `argsort`, src/ops/array_methods/sorting.rs:148-187,
209-249: `f` turns the values of a lane into what is stored there. The position is the byte offset
in the fresh result divided by the item size. -/
def laneStores (f : List α → List β) (mem : Int → α) (v : View) (axis item : Nat) : List (Nat × β) :=
  let os := v.shape.eraseIdx axis
  let outShape := if os.isEmpty then [1] else os
  let n := v.shape.getD axis 0
  (odometerAll outShape).flatMap fun outer =>
    (f ((List.range n).map fun k => mem (v.addr (argSlowIndex v.shape.length axis outer k)))).zipIdx.map fun xk =>
      ((byteOffset (argSlowIndex v.shape.length axis outer xk.2) (cStrides v.shape item)).toNat / item, xk.1)

/-- `sort` along an axis, src/ops/array_methods/sorting.rs:138-188. -/
def sortAxis [LinearOrder κ] (rd : α → φ) (wr : φ → α) (key : φ → κ) (eight : Bool) (mem : Int → α) (v : View)
    (axis : Nat) (zero : α) : Outcome (Arr α) :=
  if axis < v.shape.length then
    let result := copyArr eight mem v zero
    if v.shape.getD axis 0 ≤ 1 then .ok result
    else .ok ⟨result.shape, writes (laneStores
      (fun l => (sortPairs key ((l.map rd).zipIdx)).map fun p => wr p.1) mem v axis v.item) result.data⟩
  else .panic

/-- `argsort` along an axis, src/ops/array_methods/sorting.rs:200-250. -/
def argsortAxis [LinearOrder κ] (rd : α → φ) (key : φ → κ) (mem : Int → α) (v : View) (axis : Nat) :
    Outcome (Arr Nat) :=
  if axis < v.shape.length then
    let blank := List.replicate (sizeOf v.shape) 0
    if v.shape.getD axis 0 ≤ 1 then .ok ⟨v.shape, blank⟩
    else .ok ⟨v.shape, writes (laneStores
      (fun l => (sortPairs key ((l.map rd).zipIdx)).map fun p => p.2) mem v axis 8) blank⟩
  else .panic

/-- `sort`, `argsort`, `partition`, `argpartition` with `axis=None`: flatten by `reshape`, which
panics when the array is not contiguous, src/ops/array_methods/sorting.rs:131-136. -/
def overFlat (v : View) (f : View → Outcome β) : Outcome β :=
  match v.reshape [sizeOf v.shape] with
  | none => .panic
  | some w => f w

/-- The comparison of `lexsort`, src/ops/array_methods/sorting.rs:660-722: keys from the last to
the first, the first that differs decides. -/
def lexCmp [LinearOrder κ] : List (Nat → κ) → Nat → Nat → Ordering
  | [], _, _ => .eq
  | k :: ks, a, b => if compare (k a) (k b) ≠ .eq then compare (k a) (k b) else lexCmp ks a b

/-- How a key is read at position `i`: through the item size when contiguous, else through the
stride, src/ops/array_methods/sorting.rs:663-714. -/
def keyAt (mem : Int → κ) (v : View) (i : Nat) : κ :=
  if v.cFlag then mem (v.offset + i * v.item) else mem (v.offset + i * v.strides.getD 0 0)

/-- `lexsort`, src/ops/array_methods/sorting.rs:616-735. -/
def lexsort [LinearOrder κ] (keys : List ((Int → κ) × View)) : Option (Arr Nat) :=
  match keys with
  | [] => none
  | k0 :: _ =>
    if keys.any fun k => k.2.shape.length != 1 then none
    else
      let n := sizeOf k0.2.shape
      if keys.any fun k => sizeOf k.2.shape != n then none
      else if n = 0 then some ⟨[0], []⟩
      else some ⟨[n], (List.range n).insertionSort fun a b =>
        lexCmp ((keys.map fun k => keyAt k.1 k.2).reverse) a b ≠ .gt⟩

/-! ### In-place quickselect -/

/-- `slice.swap(i, j)`; `none` is the out-of-range panic. -/
def swapAt (l : List α) (i j : Nat) : Option (List α) :=
  match l[i]?, l[j]? with
  | some x, some y => some ((l.set i y).set j x)
  | _, _ => none

/-- The loop that moves smaller elements to the front, src/python/pyarray/mod.rs:1387-1392: the
array and `store`. -/
def smallerFirst [LinearOrder κ] (key : α → κ) (pivot : κ) : List Nat → List α → Nat → Option (List α × Nat)
  | [], l, store => some (l, store)
  | i :: is, l, store =>
    match l[i]? with
    | none => none
    | some x =>
      if key x < pivot then
        match swapAt l i store with
        | none => none
        | some l' => smallerFirst key pivot is l' (store + 1)
      else smallerFirst key pivot is l store

/-- One round of the outer loop up to the comparison of `store` with `kth`,
src/python/pyarray/mod.rs:1379-1393. -/
def selectRound [LinearOrder κ] (key : α → κ) (l : List α) (left right : Nat) : Option (List α × Nat) :=
  let pivotIdx := (left + right) / 2
  match l[pivotIdx]? with
  | none => none
  | some p =>
    match swapAt l pivotIdx right with
    | none => none
    | some l1 =>
      match smallerFirst key (key p) (List.range' left (right - left)) l1 left with
      | none => none
      | some (l2, store) =>
        match swapAt l2 store right with
        | none => none
        | some l3 => some (l3, store)

/-- The `while left < right` loop of `partition_select`, src/python/pyarray/mod.rs:1369-1402. `none`
is a panic, or more rounds than `fuel`. -/
def selectLoop [LinearOrder κ] (key : α → κ) (kth : Nat) : Nat → List α → Nat → Nat → Option (List α)
  | 0, _, _, _ => none
  | fuel + 1, l, left, right =>
    if left < right then
      match selectRound key l left right with
      | none => none
      | some (l', store) =>
        if store = kth then some l'
        else if store < kth then selectLoop key kth fuel l' (store + 1) right
        else selectLoop key kth fuel l' left (store - 1)
    else some l

/-- `partition_select` and, with `key` the first component, `partition_select_indexed`,
src/python/pyarray/mod.rs:1369-1436. -/
def partitionSelect [LinearOrder κ] (key : α → κ) (l : List α) (kth : Nat) : Option (List α) :=
  if l.length ≤ 1 then some l else selectLoop key kth l.length l 0 (l.length - 1)

/-- The `partition` method on the elements in row-major order, src/python/pyarray/mod.rs:871-905:
`rd` and `wr` are the identity for contiguous `float64` arrays.  The result is the sequence of
elements written back in row-major order. -/
def partitionMethod [LinearOrder κ] (rd : α → φ) (wr : φ → α) (key : φ → κ) (l : List α) (kth : Nat) :
    Outcome (List α) :=
  if l.length ≤ kth then .error
  else match partitionSelect key (l.map rd) kth with
    | none => .panic
    | some l' => .ok (l'.map wr)

/-- The `argpartition` method, src/python/pyarray/mod.rs:908-931; the positions are carried as `f64`
(exact below 2^53). -/
def argpartitionMethod [LinearOrder κ] (rd : α → φ) (key : φ → κ) (l : List α) (kth : Nat) : Outcome (List Nat) :=
  if l.length ≤ kth then .error
  else match partitionSelect (fun p : φ × Nat => key p.1) (l.map rd).zipIdx kth with
    | none => .panic
    | some l' => .ok (l'.map Prod.snd)

/-! ### Functions `partition` and `argpartition`

They call the standard library's `select_nth_unstable_by`, which is taken by its documented
contract: a function `select` that permutes the slice and leaves it partitioned at `kth`. -/

/-- What the documentation of `select_nth_unstable_by` promises for a total order given by keys. -/
def SelectContract [LinearOrder κ] (select : (Nat → κ) → Nat → List Nat → List Nat) : Prop :=
  ∀ key k l, k < l.length → (select key k l).Perm l ∧ PartitionedAt ((select key k l).map key) k

/-- `partition_lane_typed`, src/ops/array_methods/sorting.rs:410-454, and the typed one-dimensional
path (330-372), on the elements of a lane. -/
def partitionLane [LinearOrder κ] (select : (Nat → κ) → Nat → List Nat → List Nat) (key : α → κ) (kth : Nat)
    (l : List α) (zero : α) : List α :=
  (select (fun i => key (l.getD i zero)) kth (List.range l.length)).map fun i => l.getD i zero

/-- `partition` along an axis, src/ops/array_methods/sorting.rs:264-287, 317-407: every lane of the
fresh copy is rearranged in place. The base offset of a lane and the axis stride address the copy,
which is C-contiguous. -/
def partitionAxis [LinearOrder κ] (select : (Nat → κ) → Nat → List Nat → List Nat) (key : α → κ) (eight : Bool)
    (mem : Int → α) (v : View) (kth axis : Nat) (zero : α) : Outcome (Arr α) :=
  if axis < v.shape.length then
    let n := v.shape.getD axis 0
    if kth < n then
      let c := copyArr eight mem v zero
      if n ≤ 1 then .ok c
      else
        let os := v.shape.eraseIdx axis
        let outShape := if os.isEmpty then [1] else os
        let st := cStrides v.shape 1
        .ok ⟨c.shape, (odometerAll outShape).foldl (fun d outer =>
          let base := byteOffset outer (st.eraseIdx axis)
          let pos := fun i : Nat => (base + i * st.getD axis 0).toNat
          let vals := (List.range n).map fun i => d.getD (pos i) zero
          writes ((partitionLane select key kth vals zero).zipIdx.map fun xi => (pos xi.2, xi.1)) d) c.data⟩
    else .panic
  else .panic

/-- `argpartition` along an axis, src/ops/array_methods/sorting.rs:291-312, 457-610. -/
def argpartitionAxis [LinearOrder κ] (select : (Nat → κ) → Nat → List Nat → List Nat) (key : α → κ)
    (mem : Int → α) (v : View) (kth axis : Nat) : Outcome (Arr Nat) :=
  if axis < v.shape.length then
    let n := v.shape.getD axis 0
    if kth < n then
      let blank := List.replicate (sizeOf v.shape) 0
      if n ≤ 1 ∨ sizeOf v.shape = 0 then .ok ⟨v.shape, blank⟩
      else if v.shape.length = 1 ∧ v.cFlag then
        .ok ⟨v.shape, select (fun i => key (mem (v.offset + i * v.item))) kth (List.range n)⟩
      else
        let os := v.shape.eraseIdx axis
        let outShape := if os.isEmpty then [1] else os
        let st := cStrides v.shape 1
        .ok ⟨v.shape, writes ((odometerAll outShape).flatMap fun outer =>
          (select (fun i => key (mem (v.offset + byteOffset outer (v.strides.eraseIdx axis) + i * v.strides.getD axis 0)))
            kth (List.range n)).zipIdx.map fun xi =>
              ((byteOffset outer (st.eraseIdx axis) + xi.2 * st.getD axis 0).toNat, xi.1)) blank⟩
    else .panic
  else .panic

end Rumpy
