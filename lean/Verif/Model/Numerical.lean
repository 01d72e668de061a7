import Verif.Model.Poly
/-!
# Model: gradient, trapezoid and interp (src/ops/numerical.rs)

Elements are already read as float64 and are elements of a field `K`; rounding is not modelled.  The result
buffer of `gradient` is written at byte addresses; a store that is out of bounds or not aligned is undefined
behaviour, the model then has no result.
-/

namespace Rumpy
open Spec

/-- Element `i` of the lane that starts at byte `base` (relative to the data pointer).  `typed`: the loops generated for a
concrete element type, src/ops/numerical.rs:22-35, which divide the stride by the element size; else
`read_axis_values`, src/ops/numerical.rs:509-517. -/
def laneRead (typed : Bool) (h : Held K) (axis : Nat) (base : Int) (i : Nat) : K :=
  let stride := h.view.strides.getD axis 0
  if typed then h.mem (h.view.offset + base + (i : Int) * stride.tdiv h.view.item * h.view.item)
  else h.mem (h.view.offset + base + (i : Int) * stride)

/-- `gradient_loop`, src/ops/numerical.rs:18-36, and src/ops/numerical.rs:214-220. -/
def gradLane [Field K] (h : K) (n : Nat) (y : Nat → K) : List K :=
  [(y 1 - y 0) / h] ++ (List.range' 1 (n - 1 - 1)).map (fun i => (y (i + 1) - y (i - 1)) / (2 * h)) ++
    [(y (n - 1) - y (n - 2)) / h]

/-- `gradient_coords_loop`, src/ops/numerical.rs:39-57, and src/ops/numerical.rs:207-212. -/
def gradLaneCoords [Field K] (x : List K) (n : Nat) (y : Nat → K) : List K :=
  [(y 1 - y 0) / (x.getD 1 0 - x.getD 0 0)] ++
    (List.range' 1 (n - 1 - 1)).map (fun i => (y (i + 1) - y (i - 1)) / (x.getD (i + 1) 0 - x.getD (i - 1) 0)) ++
    [(y (n - 1) - y (n - 2)) / (x.getD (n - 1) 0 - x.getD (n - 2) 0)]

/-- Stores at byte addresses of a new float64 buffer of `size` zeros. -/
def commitStores [Zero K] (size : Nat) (ws : List (Int × K)) : Option (List K) :=
  if ws.all fun w => decide (0 ≤ w.1 ∧ w.1 % 8 = 0 ∧ w.1 / 8 < size) then
    some (writes (ws.map fun w => ((w.1 / 8).toNat, w.2)) (List.replicate size 0))
  else none

/-- `gradient_axis`, `gradient_with_coords` after its checks, and `gradient_fallback`, src/ops/numerical.rs:118-230: the loop
over lanes.  The offset of a lane in `f` is also used as its offset in the result. -/
def gradientLanes [Field K] (typed : Bool) (lane : Nat → (Nat → K) → List K) (f : Held K) (axis : Nat) : Option (Arr K) :=
  let shape := f.view.shape
  let n := shape.getD axis 0
  if n ≤ 1 then some ⟨shape, List.replicate (sizeOf shape) 0⟩
  else
    let outStride := (cStrides shape 8).getD axis 0
    (commitStores (sizeOf shape) ((axisOffsetIter shape f.view.strides axis 0).toList.flatMap fun base =>
      (lane n (laneRead typed f axis base)).zipIdx.map fun vi =>
        (if typed then base + (vi.2 : Int) * (outStride.tdiv 8 * 8)
          else (base + (vi.2 : Int) * outStride).tdiv 8 * 8, vi.1))).map fun d => ⟨shape, d⟩

/-- The arrays computed one after the other; a memory fault in one of them is a fault of the whole. -/
def collectAll (l : List (Option β)) : Outcome (List β) :=
  match l.mapM id with
  | some r => .ok r
  | none => .panic

/-- `gradient`, src/ops/numerical.rs:99-110. -/
def gradient [Field K] (typed : Bool) (f : Held K) (spacing : Option K) (axis : Option Nat) : Outcome (List (Arr K)) :=
  if sizeOf f.view.shape = 0 ∨ f.view.shape.any (fun d => decide (d < 2)) = true then .error
  else
    let sp := spacing.getD 1
    match axis with
    | some ax => if ax < f.view.shape.length then collectAll [gradientLanes typed (gradLane sp) f ax] else .error
    | none => collectAll ((List.range f.view.shape.length).map fun ax => gradientLanes typed (gradLane sp) f ax)

/-- `gradient_with_coords`, src/ops/numerical.rs:113-152. -/
def gradientWithCoords [Field K] (typed : Bool) (f coords : Held K) (axis : Nat) : Outcome (Arr K) :=
  if axis ≥ f.view.shape.length ∨ coords.view.shape.length ≠ 1 ∨ sizeOf coords.view.shape ≠ f.view.shape.getD axis 0 then .error
  else
    match gradientLanes typed (gradLaneCoords (toVec coords)) f axis with
    | some r => .ok r
    | none => .panic

/-- `trapezoid_loop`, src/ops/numerical.rs:60-80, and src/ops/numerical.rs:309-313.  `0.5` is `1 / 2`. -/
def trapLane [Field K] (n : Nat) (dx : K) (x : Option (List K)) (y : Nat → K) : K :=
  (List.range (n - 1)).foldl (fun s j =>
    s + (y j + y (j + 1)) * (match x with | some xs => xs.getD (j + 1) 0 - xs.getD j 0 | none => dx) * (1 / 2)) 0

/-- The coordinates that are used, src/ops/numerical.rs:262-265. -/
def trapCoords (x : Option (Held K)) (n : Nat) : Option (List K) :=
  x.bind fun xa => if xa.view.shape.length ≠ 1 ∨ sizeOf xa.view.shape ≠ n then none else some (toVec xa)

/-- `trapezoid`, src/ops/numerical.rs:237-318.  A negative axis that stays negative becomes a huge number, which is
refused. -/
def trapezoid [Field K] (typed : Bool) (y : Held K) (x : Option (Held K)) (dx : K) (axis : Int) : Option (Arr K) :=
  let ndim := y.view.shape.length
  if ndim = 0 then some ⟨[1], [0]⟩
  else
    let axis := if axis < 0 then (ndim : Int) + axis else axis
    if axis < 0 ∨ (ndim : Int) ≤ axis then none
    else
      let axis := axis.toNat
      let n := y.view.shape.getD axis 0
      let out := y.view.shape.eraseIdx axis
      let out := if out.isEmpty then [1] else out
      if n ≤ 1 then some ⟨out, List.replicate (sizeOf out) 0⟩
      else some ⟨out, writes ((axisOffsetIter y.view.shape y.view.strides axis 0).toList.zipIdx.map fun bi =>
        (bi.2, trapLane n dx (trapCoords x n) (laneRead typed y axis bi.1))) (List.replicate (sizeOf out) 0)⟩

/-- The search loop of `interp_single`, src/ops/numerical.rs:380-393; `fuel` bounds the number of rounds. -/
def interpSearch [LE K] [DecidableLE K] (xp : Nat → K) (xi : K) : Nat → Nat → Nat → Nat × Nat
  | 0, lo, hi => (lo, hi)
  | fuel + 1, lo, hi =>
    if hi - lo > 1 then
      let mid := (lo + hi) / 2
      if xp mid ≤ xi then interpSearch xp xi fuel mid hi else interpSearch xp xi fuel lo mid
    else (lo, hi)

/-- `interp_single`, src/ops/numerical.rs:380-393. -/
def interpSingle [Field K] [LinearOrder K] (xi : K) (xp fp : List K) (left right : K) : K :=
  let n := xp.length
  if xi ≤ xp.getD 0 0 then left
  else if xp.getD (n - 1) 0 ≤ xi then right
  else
    let r := interpSearch (fun i => xp.getD i 0) xi n 0 (n - 1)
    let t := (xi - xp.getD r.1 0) / (xp.getD r.2 0 - xp.getD r.1 0)
    fp.getD r.1 0 + t * (fp.getD r.2 0 - fp.getD r.1 0)

/-- `interp`, src/ops/numerical.rs:325-377.  The element at the `i`-th offset is read through an element pointer for the common
dtypes, so its offset is divided by the element size. -/
def interp [Field K] [LinearOrder K] (typed : Bool) (x xp fp : Held K) (left right : Option K) : Option (Arr K) :=
  if xp.view.shape.length ≠ 1 ∨ fp.view.shape.length ≠ 1 ∨ sizeOf xp.view.shape ≠ sizeOf fp.view.shape then none
  else
    let n := sizeOf xp.view.shape
    let size := sizeOf x.view.shape
    if n = 0 then some ⟨x.view.shape, List.replicate size 0⟩
    else
      let xs := toVec xp
      let fs := toVec fp
      if size = 0 then some ⟨x.view.shape, List.replicate size 0⟩
      else some ⟨x.view.shape, writes (x.view.addrs.zipIdx.map fun oi =>
        (oi.2, interpSingle (if typed then x.mem (x.view.offset + (oi.1 - x.view.offset).tdiv x.view.item * x.view.item) else x.mem oi.1)
          xs fs (left.getD (fs.getD 0 0)) (right.getD (fs.getD (n - 1) 0)))) (List.replicate size 0)⟩

end Rumpy
