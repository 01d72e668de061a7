import Verif.Spec.Put
import Verif.Model.Search
import Verif.Model.Args
import Verif.Model.Copyto

/-!
# Model: `put` as a function and as a method

Python numbers are elements too: `int`, `flt` and `bool`.
-/

namespace Rumpy

open Spec

/-- `extract::<i64>` of a Python number. -/
def numI64 : Elem → Option Int
  | .int n => if -2 ^ 63 ≤ n ∧ n < 2 ^ 63 then some n else none
  | .bool b => some (if b then 1 else 0)
  | _ => none

/-- `extract::<f64>` of a Python number: integers beyond the range of a double are refused (OverflowError), complex numbers and
strings too (TypeError). -/
def numF64 : Elem → Option (Flt ℚ)
  | .int n => if n.natAbs < 2 ^ 1024 - 2 ^ 970 then readF64 (.int n) else none
  | x => readF64 x

/-- The indices of the function, src/python/indexing.rs:131-146.  The array written to is borrowed, so that it cannot be read. -/
def putIndices : PutArg → Option (List Int)
  | .tuple l | .list l => l.mapM numI64
  | .array l => some (l.map readIndex)
  | .number _ | .itself => none

/-- The values of the function, src/python/indexing.rs:148-165.  An array of one element is read by `__float__`, which gives the
same (src/python/pyarray/dunder_ops.rs:117-124). -/
def putValues : PutArg → Option (List (Flt ℚ))
  | .number x => (numF64 x).map ([·])
  | .tuple l | .list l => l.mapM numF64
  | .array l => some (l.map readOrZero)
  | .itself => none

/-- `extract_i64_vec`, src/python/pyarray/mod.rs:1013-1023. -/
def methodIndices : PutArg → Option (List Int)
  | .list l => l.mapM numI64
  | .array l => some (l.map fun x => fltToInt (-2 ^ 63) (2 ^ 63 - 1) (readOrZero x))
  | _ => none

/-- `extract_f64_vec`, src/python/pyarray/mod.rs:1026-1036. -/
def methodValues : PutArg → Option (List (Flt ℚ))
  | .list l => l.mapM numF64
  | .array l => some (l.map readOrZero)
  | _ => none

/-- `put`, src/ops/indexing.rs:495-525, into an array of dtype `d`: `set_element`, src/array/mod.rs:167-178, writes through
`write_f64_at_byte_offset`, which stores nothing into strings. -/
def putElems (d : DType) (mem : Int → Elem) (v : View) (idx : List Int) (vals : List (Flt ℚ)) : (Int → Elem) × Outcome Unit :=
  match d with
  | .str _ | .bytes _ => (mem, (put mem v idx (vals.map (writeF64 d))).2)
  | d => put mem v idx (vals.map (writeF64 d))

/-- `put` after its arguments have been read; a failure to read them is an exception. -/
def putRead (d : DType) (mem : Int → Elem) (v : View) (idx : Option (List Int)) (vals : Option (List (Flt ℚ))) :
    (Int → Elem) × Outcome Unit :=
  match idx, vals with
  | some idx, some vals => putElems d mem v idx vals
  | _, _ => (mem, .error)

/-- `put` of the module, src/python/indexing.rs:126-169. -/
def putFn (d : DType) (mem : Int → Elem) (v : View) (ind vals : PutArg) : (Int → Elem) × Outcome Unit :=
  putRead d mem v (putIndices ind) (putValues vals)

/-- `put` as a method, src/python/pyarray/mod.rs:583-588. -/
def putMethod (d : DType) (mem : Int → Elem) (v : View) (ind vals : PutArg) : (Int → Elem) × Outcome Unit :=
  putRead d mem v (methodIndices ind) (methodValues vals)

end Rumpy
