import Verif.Spec.Nd
/-!
# Specification: an array and the memory it was given
-/

namespace Spec

/-- Every element of an array of this shape, at the address `addr` gives it, lies inside a buffer of so many bytes. -/
def Inside (bytes : Nat) (shape : List Nat) (item : Nat) (addr : List Nat → Int) : Prop :=
  ∀ idx, InShape shape idx → 0 ≤ addr idx ∧ addr idx + item ≤ bytes

end Spec
