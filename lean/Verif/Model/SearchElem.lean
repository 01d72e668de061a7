import Verif.Model.Search
import Verif.Model.MixedCompare

/-!
# Model: `searchsorted` for arrays of two dtypes, Python numbers and sides
-/

namespace Rumpy

open Spec

/-- `partial_cmp(..).unwrap_or(Ordering::Equal)` of floats. -/
def fltOrd (x y : Flt ℚ) : Ordering := if fltLt x y then .lt else if fltLt y x then .gt else .eq

/-- `compare_elements`: src/array/dtype/macros.rs:172-176, 356-358, 558-560, bool.rs:99-103, float16.rs:164-168, datetime64.rs:234-236,
408-410, complex128.rs:392-399, complex64.rs:389-396, string.rs:180-190, 404-414.  Two elements of one dtype are compared; the last case
does not arise. -/
def ordElem (d : DType) : Elem → Elem → Ordering
  | .int x, .int y => compare x y
  | .bool x, .bool y => compare (if x then 1 else 0 : Nat) (if y then 1 else 0)
  | .flt x, .flt y => fltOrd x y
  | .cpx x y, .cpx u v => match d.format with
    | some (p, lo, hi) => fltOrd (absSqr p lo hi x y) (absSqr p lo hi u v)
    | none => .eq
  | .text s, .text t => if s < t then .lt else if t < s then .gt else .eq
  | _, _ => .eq

/-- `searchsorted`, src/ops/indexing.rs:344-401: both operands are converted to the common dtype. -/
def searchElems (a b : DType) (h g : Held Elem) (left : Bool) : Option (Arr Nat) :=
  let d := promote a b
  let h' := if a ≠ d then recast a d h else h
  let g' := if b ≠ d then recast b d g else g
  searchsorted (ordElem d) h'.mem h'.view g'.nd left

/-- What is looked for: an array or a Python number. -/
inductive SearchArg where
  | array (d : DType) (g : Held Elem)
  | number (s : PyScalar)

/-- The answer: an array of positions or a Python integer. -/
inductive SearchResult where
  | array (r : Arr Nat)
  | int (k : Nat)
deriving DecidableEq

/-- `side != "right"`, src/ops/indexing.rs:363. -/
def sideLeft (side : String) : Bool := !decide (side = "right")

/-- `searchsorted` of the module, src/python/indexing.rs:88-106. -/
def searchFn (a : DType) (h : Held Elem) (v : SearchArg) (side : String) : Outcome SearchResult :=
  let found := match v with
    | .array b g => searchElems a b h g (sideLeft side)
    | .number s => (pyF64 s).bind fun x => searchElems a .f64 h (fullOne .f64 x) (sideLeft side)
  match found with
  | some r => .ok (.array r)
  | none => .error

/-- `extract::<f64>`: of an array by `__float__`, src/python/pyarray/dunder_ops.rs:117-124, if it has one element. -/
def searchNumber : SearchArg → Option (Flt ℚ)
  | .array _ g => if sizeOf g.view.shape = 1 then some ((readF64 (g.nd.get (List.replicate g.view.shape.length 0))).getD (.num 0)) else none
  | .number s => pyF64 s

/-- `searchsorted` as a method, src/python/pyarray/mod.rs:496-513. -/
def searchMethod (a : DType) (h : Held Elem) (v : SearchArg) (side : String) : Outcome SearchResult :=
  match searchNumber v with
  | some x =>
    match searchElems a .f64 h (fullOne .f64 x) (sideLeft side) with
    | some r => .ok (.int (r.data.getD 0 0))
    | none => .error
  | none =>
    match v with
    | .array b g =>
      match searchElems a b h g (sideLeft side) with
      | some r => .ok (.array r)
      | none => .error
    | .number _ => .error

end Rumpy
