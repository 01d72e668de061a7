import Verif.Spec.ResultType
import Verif.Model.DTypeInfo
import Verif.Model.Arith
/-!
# Model: `result_type` of operands of every kind (src/python/dtype.rs)
-/

namespace Rumpy
open Spec

/-- `extract_dtype_from_operand`, src/python/dtype.rs:294-329: the name that the array gives for its dtype is read back; then the name
of a dtype, a bool, a 64-bit integer, a float, a complex number; `none` is the TypeError.  Of the objects with a `dtype` only rumpy
arrays are modelled.  A whole number beyond 64 bits is tried as a float. -/
def operandType : Operand → Option DType
  | .array d => dtypeFromString (normalizeDtype (DType.name d))
  | .named s => dtypeFromString s
  | .bool _ => some .bool
  | .int n =>
    if -(2 : Int) ^ 63 ≤ n ∧ n < 2 ^ 63 then some .i64
    else match pyF64 (.int n) with
      | some _ => some .f64
      | none => none
  | .float _ => some .f64
  | .complex _ _ => some .c128
  | .other => none

/-- The loop of `result_type`, src/python/dtype.rs:280-288: the dtype so far, then the remaining arguments. -/
def resultLoop : Option DType → List Operand → Option (Option DType)
  | cur, [] => some cur
  | cur, a :: rest =>
    match operandType a with
    | none => none
    | some d => resultLoop (some (match cur with
      | none => d
      | some c => promote c d)) rest

/-- `result_type`, src/python/dtype.rs:273-291; `none` is the TypeError. -/
def resultTypeOf (args : List Operand) : Option String :=
  if args = [] then none
  else match resultLoop none args with
    | some (some d) => some (DType.name d)
    | _ => none

end Rumpy
