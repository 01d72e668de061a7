import Verif.Spec.Cast
import Verif.Model.Rearrange
/-!
# Specification: `insert` with values of every kind
-/

namespace Spec
open Rumpy

/-- The values given to `insert`: a Python number, a list of Python numbers, an array with its dtype, or anything else. -/
inductive InsertArg where
  | number (x : Elem)
  | list (l : List Elem)
  | array (e : DType) (h : Held Elem)
  | other

end Spec
