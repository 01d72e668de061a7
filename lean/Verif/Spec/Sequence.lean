import Verif.Spec.Copyto
import Verif.Spec.Arith
/-!
# Specification: arrays as Python sequences, truth values and numbers
-/

namespace Spec

/-- Row `i` of an array. -/
def Nd.row {α : Type} (a : Nd α) (i : Nat) : Nd α := ⟨a.shape.tail, fun idx => a.get (i :: idx)⟩

end Spec
