import Verif.Model.Arith
/-!
# Model: `float_power`
-/

namespace Rumpy
open Spec

/-- An operand of `float_power`. -/
inductive PowArg where
  | array (d : DType) (h : Held Elem)
  | number (s : PyScalar)
  /-- A Python list of numbers. -/
  | list (xs : List PyScalar)
  /-- Anything else: `None`, a nested list, a string, … -/
  | other

/-- `extract::<Vec<f64>>`: every item must be a number that can be read as a double. -/
def pyF64s : List PyScalar → Option (List (Flt ℚ))
  | [] => some []
  | s :: ss => match pyF64 s with
    | none => none
    | some x => (pyF64s ss).map (x :: ·)

/-- The operand as an array, src/python/ufuncs.rs:905-920 (and 922-937); `none` is the `TypeError`. -/
def powOperand : PowArg → Option (DType × Held Elem)
  | .array d h => some (d, h)
  | .number s => (pyF64 s).map fun x => (.f64, fullOne .f64 x)
  | .list ss => (pyF64s ss).map fun xs => (.f64, Held.of ⟨[xs.length], xs.map Elem.flt⟩ 8 (zeroElem .f64))
  | .other => none

/-- `powf` of doubles and `powc` of complex numbers of doubles. -/
structure PowLib where
  real : Flt ℚ → Flt ℚ → Flt ℚ
  cpx : Flt ℚ × Flt ℚ → Flt ℚ × Flt ℚ → Flt ℚ × Flt ℚ

/-- One element: the closures of src/ops/dispatch.rs:183-195 (`x as f64` is `readF64`) and lines 261-263. -/
def powElem (lib : PowLib) : Elem → Elem → Elem
  | .cpx x1 x2, .cpx y1 y2 => .cpx (lib.cpx (x1, x2) (y1, y2)).1 (lib.cpx (x1, x2) (y1, y2)).2
  | x, y => .flt (lib.real ((readF64 x).getD (.num 0)) ((readF64 y).getD (.num 0)))

/-- `ensure_contiguous`, src/ops/dispatch.rs:201-207. -/
def ensureContiguous (d : DType) (mem : Int → Elem) (v : View) (out : List Nat) : Held Elem :=
  if v.cFlag && v.shape == out then ⟨mem, v⟩ else recast d d ⟨mem, v⟩

/-- `dispatch_float_power_to_f64`, src/ops/dispatch.rs:210-240, and `dispatch_float_power_complex64`, lines 243-266. -/
def powLoop (lib : PowLib) (d r : DType) (memA memB : Int → Elem) (a b : View) (out : List Nat) : Arr Elem :=
  let n := sizeOf out
  let blank := List.replicate n (zeroElem r)
  if n = 0 then ⟨out, blank⟩
  else
    let x := ensureContiguous d memA a out
    let y := ensureContiguous d memB b out
    ⟨out, writes ((List.range n).map fun (i : Nat) =>
      (i, powElem lib (x.mem (x.view.offset + i * x.view.item)) (y.mem (y.view.offset + i * y.view.item)))) blank⟩

/-- The result dtype, and whether the generic binary loop is used, src/ops/dispatch.rs:174-197; `none` is a dtype without `float_power`. -/
def powKind : DType → Option (DType × Bool)
  | .c128 => some (.c128, true)
  | .c64 => some (.c128, false)
  | .f64 => some (.f64, true)
  | .f32 | .f16 | .i64 | .i32 | .i16 | .i8 | .u64 | .u32 | .u16 | .u8 => some (.f64, false)
  | _ => none

/-- `float_power` after the operands are arrays, src/python/ufuncs.rs:939-957 and `dispatch_float_power` (src/ops/dispatch.rs:165-198). -/
def floatPowerArrays (lib : PowLib) (a b : DType) (h g : Held Elem) : Outcome (DType × Arr Elem) :=
  match broadcastShapes h.view.shape g.view.shape with
  | none => .error
  | some out =>
    let d := promote a b
    let h' := if a ≠ d then recast a d h else h
    let g' := if b ≠ d then recast b d g else g
    match h'.view.broadcastTo out, g'.view.broadcastTo out with
    | some x, some y => match powKind d with
      | none => .error
      | some (r, true) => .ok (r, mapBinary (powElem lib) h'.mem g'.mem x y out (zeroElem r))
      | some (r, false) => .ok (r, powLoop lib d r h'.mem g'.mem x y out)
    | _, _ => .error

/-- `float_power`, src/python/ufuncs.rs:901-958. -/
def floatPower (lib : PowLib) (x y : PowArg) : Outcome (DType × Arr Elem) :=
  match powOperand x with
  | none => .error
  | some (a, h) => match powOperand y with
    | none => .error
    | some (b, g) => floatPowerArrays lib a b h g

end Rumpy
