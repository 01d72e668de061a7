import Verif.Spec.Cast
import Verif.Spec.Compare

/-!
# Where an element stands on the line from `-inf` to `inf`
-/

namespace Spec

/-- The place of an element; NaN, complex numbers and strings have none. -/
def Elem.place : Elem → Option (WithBot (WithTop ℚ))
  | .bool b => (Flt.num (if b then 1 else 0)).place
  | .int n => (Flt.num (n : ℚ)).place
  | .flt u => u.place
  | .cpx _ _ => none
  | .text _ => none

end Spec
