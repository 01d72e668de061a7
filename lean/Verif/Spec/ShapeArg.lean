import Verif.Spec.Args
/-!
# Specification: how a shape may be written
-/

namespace Spec

/-- The lengths that one argument writes: an integer, or a tuple or list of integers. -/
def PyArg.Writes (a : PyArg) (dims : List Int) : Prop := (∃ d, a = .int d ∧ dims = [d]) ∨ a.Seq (dims.map .int)

/-- The lengths that the arguments of a call write: one argument as above, or several integers. -/
def ArgsWrite (args : List PyArg) (dims : List Int) : Prop :=
  (∃ a, args = [a] ∧ a.Writes dims) ∨ (2 ≤ dims.length ∧ args = dims.map .int)

/-- An integer that fits 64 bits with a sign. -/
def FitsWord (d : Int) : Prop := -2 ^ 63 ≤ d ∧ d < 2 ^ 63

end Spec
