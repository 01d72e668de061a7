import Verif.Model.Rearrange
import Verif.Model.Select
import Verif.Model.Search
/-!
# Model: resize, unstack, extract, place, putmask, select, piecewise, ediff1d (src/python/misc.rs)

A condition is its memory byte by byte and a view: the code reads one byte per element whatever the
dtype of the condition. The memory of the other arrays maps an address to what is read there as an
element of the result's dtype. `typed` says that the dtype is one of bool, the integers, float32 and
float64; other dtypes are read and written as `f64` (`conv`).
-/

namespace Rumpy
open Spec

/-- The addresses of the elements: `ptr.add(i)` on a pointer to elements, or `ptr.offset(offsets[i])`
with the offsets of `iter_offsets`. -/
def flatAddrs (fast : Bool) (v : View) : List Int :=
  if fast then (List.range (sizeOf v.shape)).map fun (i : Nat) => v.offset + (i : Int) * (v.item : Int) else v.addrs

/-- The bytes of a condition that are tested: `*cond_ptr.add(i)` on a pointer to bytes, or one byte at
the offset of each element. -/
def condFlags (fast : Bool) (c : Held Nat) : List Bool :=
  if fast then (List.range (sizeOf c.view.shape)).map fun (i : Nat) => c.mem (c.view.offset + (i : Int)) != 0
  else c.view.addrs.map fun o => c.mem o != 0

/-- `extract`, src/python/misc.rs:349-491. -/
def extract (typed : Bool) (conv : α → α) (c : Held Nat) (h : Held α) (zero : α) : Outcome (Arr α) :=
  if sizeOf c.view.shape ≠ sizeOf h.view.shape then .error
  else
    let fast := c.view.cFlag && h.view.cFlag
    let flags := condFlags fast c
    let count := flags.count true
    let blank := List.replicate count zero
    if count = 0 then .ok ⟨[count], blank⟩
    else
      let rd := fun p => if typed then h.mem p else conv (h.mem p)
      .ok ⟨[count], writes (packLoop (·.1) (fun x => rd x.2) (flags.zip (flatAddrs fast h.view)) 0) blank⟩

/-- The loop of `place`, src/python/misc.rs:531-537, 568-575, 596-603: `k` is `val_idx`. -/
def placeLoop (src : Nat → Int) (n : Nat) (conv : α → α) : List (Bool × Int) → Nat → (Int → α) → (Int → α)
  | [], _, mem => mem
  | (m, p) :: l, k, mem =>
    if m then placeLoop src n conv l (k + 1) (fun q => if q = p then conv (mem (src (k % n))) else mem q)
    else placeLoop src n conv l k mem

/-- The loop of `putmask`, src/python/misc.rs:648-652, 683-688, 709-714: `i` counts all positions. -/
def putmaskLoop (src : Nat → Int) (n : Nat) (conv : α → α) : List (Bool × Int) → Nat → (Int → α) → (Int → α)
  | [], _, mem => mem
  | (m, p) :: l, i, mem =>
    putmaskLoop src n conv l (i + 1) (if m then fun q => if q = p then conv (mem (src (i % n))) else mem q else mem)

/-- The frame shared by `place`, src/python/misc.rs:500-608, and `putmask`, src/python/misc.rs:617-719: the array
and the values live in one memory. `same` says that their dtypes agree. On the fast path the dtypes
that are not `typed` are skipped. -/
def maskedStore (loop : (Nat → Int) → Nat → (α → α) → List (Bool × Int) → Nat → (Int → α) → (Int → α))
    (typed same : Bool) (conv : α → α) (c : Held Nat) (arr vals : View) (mem : Int → α) : Outcome (Int → α) :=
  if sizeOf c.view.shape ≠ sizeOf arr.shape then .error
  else if sizeOf vals.shape = 0 then .ok mem
  else
    let fast := c.view.cFlag && arr.cFlag && vals.cFlag && same
    let go := fun conv => loop (fun j => (flatAddrs fast vals).getD j 0) (sizeOf vals.shape) conv
      ((condFlags fast c).zip (flatAddrs fast arr)) 0 mem
    if fast then .ok (if typed then go id else mem) else .ok (go (if typed then id else conv))

/-- `place`, src/python/misc.rs:500-608. -/
def place (typed same : Bool) (conv : α → α) (c : Held Nat) (arr vals : View) (mem : Int → α) : Outcome (Int → α) :=
  maskedStore placeLoop typed same conv c arr vals mem

/-- `putmask`, src/python/misc.rs:617-719. -/
def putmask (typed same : Bool) (conv : α → α) (c : Held Nat) (arr vals : View) (mem : Int → α) : Outcome (Int → α) :=
  maskedStore putmaskLoop typed same conv c arr vals mem

/-- The inner loop of `select`, src/python/misc.rs:773-781, 802-811, at position `i`: `none` is the panic of
an index beyond the offsets, `some none` leaves the default. -/
def selectAt (i : Nat) : List (Held Nat × Held α) → Option (Option α)
  | [] => some none
  | (c, h) :: l =>
    match c.view.addrs[i]? with
    | none => none
    | some o =>
      if c.mem o ≠ 0 then
        match h.view.addrs[i]? with
        | none => none
        | some p => some (some (h.mem p))
      else selectAt i l

/-- `select`, src/python/misc.rs:728-817. `dflt` is the default as stored by `full`; the choices are read in
the dtype of the first one, by `conv` if it is not `typed`. -/
def select (typed : Bool) (conv : α → α) (conds : List (Held Nat)) (choices : List (Held α)) (dflt : α) : Outcome (Arr α) :=
  match conds with
  | [] => .error
  | c₀ :: _ =>
    if conds.length ≠ choices.length then .error
    else
      match (List.range (sizeOf c₀.view.shape)).mapM fun i => selectAt i (conds.zip choices) with
      | none => .panic
      | some r => .ok ⟨c₀.view.shape, r.map fun o => (o.map fun x => if typed then x else conv x).getD dflt⟩

/-- One condition of `piecewise`, src/python/misc.rs:911-920. The vectors `assigned` and the result are kept
together: an element is `none` until it is assigned. -/
def piecePass (c : Held Nat) (f : α → α) (xs : List α) (done : List (Option α)) : Option (List (Option α)) :=
  (done.zip xs).zipIdx.mapM fun dxi =>
    match dxi.1.1 with
    | some y => some (some y)
    | none =>
      match c.view.addrs[dxi.2]? with
      | none => none
      | some o => some (if c.mem o ≠ 0 then some (f dxi.1.2) else none)

/-- The conditions one after the other, src/python/misc.rs:903-921. -/
def pieceLoop (xs : List α) : List (Held Nat × (α → α)) → List (Option α) → Option (List (Option α))
  | [], done => some done
  | (c, f) :: l, done =>
    match piecePass c f xs done with
    | none => none
    | some d => pieceLoop xs l d

/-- `piecewise`, src/python/misc.rs:827-941. A function takes an element to the stored result (a constant
ignores its argument; the passage through `f64` is part of it); functions that raise are left out. -/
def piecewise (x : Held α) (conds : List (Held Nat)) (funcs : List (α → α)) (zero : α) : Outcome (Arr α) :=
  if conds = [] then .error
  else
    let hasDefault := funcs.length = conds.length + 1
    if ¬ hasDefault ∧ funcs.length ≠ conds.length then .error
    else
      let xs := x.view.addrs.map x.mem
      match pieceLoop xs (conds.zip funcs) (List.replicate (sizeOf x.view.shape) none) with
      | none => .panic
      | some done =>
        let rest := fun a => if hasDefault then (funcs.getD conds.length id) a else zero
        .ok ⟨x.view.shape, (done.zip xs).map fun dx => dx.1.getD (rest dx.2)⟩

/-- `resize`, src/python/misc.rs:52-124. -/
def resizeArr (h : Held α) (shape : List Nat) (zero : α) : Arr α :=
  let n := sizeOf h.view.shape
  let d := sizeOf shape
  let blank := List.replicate d zero
  if d = 0 ∨ n = 0 then ⟨shape, blank⟩
  else if h.view.cFlag then
    let cell := fun (j : Nat) => h.mem (h.view.offset + (j : Int) * (h.view.item : Int))
    let full := (List.range (d / n)).flatMap fun t => (List.range n).map fun j => (t * n + j, cell j)
    let rem := (List.range (d % n)).map fun j => ((d / n) * n + j, cell j)
    ⟨shape, writes (full ++ rem) blank⟩
  else
    ⟨shape, writes ((List.range d).map fun i => (i, h.mem (h.view.addrs.getD (i % n) 0))) blank⟩

/-- `resolve_axis`, src/python/misc.rs:28-42; a negative number cast to `usize` is beyond every rank. -/
def resolveAxis (axis : Int) (ndim : Nat) : Option Nat :=
  let r := if axis < 0 then (ndim : Int) + axis else axis
  if r < 0 ∨ (ndim : Int) ≤ r then none else some r.toNat

/-- `unstack`, src/python/misc.rs:133-156. -/
def unstack (v : View) (axis : Int) : Outcome (List View) :=
  if v.shape.length = 0 then .error
  else
    match resolveAxis axis v.shape.length with
    | none => .error
    | some ax =>
      match (List.range (v.shape.getD ax 0)).mapM fun (i : Nat) => (v.sliceAxis ax i (i + 1) 1).map fun s => s.squeezeAxis ax with
      | none => .panic
      | some vs => .ok vs

/-- What `ediff1d` may be given for its ends: nothing, a scalar (already in the dtype) or an array. -/
inductive DiffEnd (α : Type u) where
  | none
  | scalar (x : α)
  | array (h : Held α)

/-- The values written for an end, src/python/misc.rs:985-994, 1016-1024. -/
def DiffEnd.vals : DiffEnd α → List α
  | .none => []
  | .scalar x => [x]
  | .array h => h.view.addrs.map h.mem

/-- `ediff1d`, src/python/misc.rs:950-1087, for the typed dtypes. -/
def ediff1d [Sub α] (h : Held α) (toEnd toBegin : DiffEnd α) (zero : α) : Arr α :=
  let size := sizeOf h.view.shape
  let outLen := toBegin.vals.length + (size - 1) + toEnd.vals.length
  let blank := List.replicate outLen zero
  if outLen = 0 then ⟨[outLen], blank⟩
  else
    let rd := fun (i : Nat) => h.mem ((flatAddrs h.view.cFlag h.view).getD i 0)
    let diffs := (List.range (size - 1)).map fun i => rd (i + 1) - rd i
    ⟨[outLen], writes ((toBegin.vals ++ diffs ++ toEnd.vals).zipIdx.map fun x => (x.2, x.1)) blank⟩

end Rumpy
