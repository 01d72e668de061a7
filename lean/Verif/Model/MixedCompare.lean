import Verif.Model.Arith
/-!
# Model: comparisons of arrays of different dtypes and with Python numbers

The comparison of Model/Compare with the conversion of each dtype and the kernel of each dtype filled in.
-/

namespace Rumpy
open Spec

/-- The operators on integers, src/ops/kernels/comparison.rs:68-75. -/
def cmpWhole : Cmp → Int → Int → Bool
  | .gt, x, y => decide (y < x)
  | .lt, x, y => decide (x < y)
  | .ge, x, y => decide (y ≤ x)
  | .le, x, y => decide (x ≤ y)
  | .eq, x, y => decide (x = y)
  | .ne, x, y => !decide (x = y)

/-- `norm_sqr` of num-complex, rounded after each operation. -/
def absSqr (p : Nat) (lo hi : Int) (x y : Flt ℚ) : Flt ℚ := fltAdd p lo hi (fltMul p lo hi x x) (fltMul p lo hi y y)

/-- `CompareKernel` for complex numbers, src/ops/kernels/comparison.rs:83-110. -/
def cmpComplex (p : Nat) (lo hi : Int) (op : Cmp) (x y u v : Flt ℚ) : Bool :=
  match op with
  | .eq => fltEq x u && fltEq y v
  | .ne => !(fltEq x u && fltEq y v)
  | op => cmpFlt op (absSqr p lo hi x y) (absSqr p lo hi u v)

/-- One comparison of two elements of the common dtype: the kernels behind `dispatch_compare_kernel` (src/ops/dispatch.rs:1111-1129) and,
for bools and strings, the closures on `get_element` (src/ops/ufunc.rs:506-519, src/array/mod.rs:144-152). -/
def cmpElem (d : DType) (op : Cmp) : Elem → Elem → Bool
  | .int x, .int y => cmpWhole op x y
  | .flt x, .flt y => cmpFlt op x y
  | .cpx x y, .cpx u v => match d.format with
    | some (p, lo, hi) => cmpComplex p lo hi op x y u v
    | none => false
  | x, y => cmpFlt op ((readF64 x).getD (.num 0)) ((readF64 y).getD (.num 0))

/-- The dtypes without a kernel, src/ops/dispatch.rs:1128. -/
def lacksCompare : DType → Bool
  | .bool | .str _ | .bytes _ => true
  | _ => false

/-- `map_compare_op`, src/ops/ufunc.rs:468-522; `none` is a shape mismatch. -/
def compareArrays (op : Cmp) (a b : DType) (h g : Held Elem) : Option (Arr Bool) := do
  let out ← broadcastShapes h.view.shape g.view.shape
  let d := promote a b
  let h' := if a ≠ d then recast a d h else h
  let g' := if b ≠ d then recast b d g else g
  let x ← h'.view.broadcastTo out
  let y ← g'.view.broadcastTo out
  some (if lacksCompare d then mapBinaryFallback (cmpElem d op) h'.mem g'.mem x y out false
    else mapBinary (cmpElem d op) h'.mem g'.mem x y out false)

/-- The right operand of a comparison. -/
inductive CmpArg where
  | array (d : DType) (h : Held Elem)
  | number (s : PyScalar)
  /-- Anything else: `None`, a list, a string, … -/
  | other

/-- `comparison_op_dispatch`, src/python/pyarray/mod.rs:1296-1314, and `compare_scalar`, src/ops/mod.rs:115-119. -/
def compareDispatch (op : Cmp) (a : DType) (h : Held Elem) : CmpArg → Outcome (Arr Bool)
  | .array b g => match compareArrays op a b h g with
    | some r => .ok r
    | none => .error
  | .number s => match pyF64 s with
    | none => .error
    | some x => match compareArrays op a .f64 h (fullOne .f64 x) with
      | some r => .ok r
      | none => .panic
  | .other => .error

end Rumpy
