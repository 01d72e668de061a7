import Verif.Spec.Rearrange
/-!
# Specification: flat access, resizing in place and reinterpreting bytes
-/

namespace Spec
namespace Nd

/-- `a.resize(shape)`: the elements in row-major order, cut off or continued with zeros. -/
def resized (a : Nd α) (shape : List Nat) (zero : α) : Nd α :=
  { shape := shape, get := fun idx => (a.toList[rank shape idx]?).getD zero }

/-- The bytes of an array of elements that are lists of bytes, in row-major order. -/
def allBytes (a : Nd (List UInt8)) : List UInt8 := a.toList.flatten

end Nd

/-- `s'` is `s` with the last length changed so that it takes as many bytes with elements of `new` bytes as `s` does with
elements of `old` bytes. -/
def Rescaled (s s' : List Nat) (old new : Nat) : Prop :=
  ∃ rest n n', s = rest ++ [n] ∧ s' = rest ++ [n'] ∧ n' * new = n * old

end Spec
