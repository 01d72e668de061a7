import Verif.Spec.DType
import Verif.Spec.Arith
/-!
# Specification: the dtype of an operand
-/

namespace Spec

/-- What may be given to `result_type`: an array, the name of a dtype, a Python number, or anything else. -/
inductive Operand where
  | array (d : DType)
  | named (s : String)
  | bool (b : Bool)
  | int (n : Int)
  | float (x : Flt ℚ)
  | complex (re im : Flt ℚ)
  | other

end Spec
