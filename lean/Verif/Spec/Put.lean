import Verif.Spec.Cast
import Verif.Spec.Select

/-!
# Specification: `put` with arguments of every kind
-/

namespace Spec

/-- An argument of `put`: a Python number, a tuple or list of Python numbers, another array (its elements in row-major order), or the
array that is written to. -/
inductive PutArg where
  | number (x : Elem)
  | tuple (l : List Elem)
  | list (l : List Elem)
  | array (l : List Elem)
  | itself

/-- The element is an integer that means the flat position `k` of `n` elements; negative ones count from the end. -/
def MeansPosition (n : Nat) (x : Elem) (k : Nat) : Prop := ∃ i, x = .int i ∧ pyIndex n i = some k

/-- The flat list of elements after `put(a, ks, xs)`: the positions named hold the values, repeated as needed, converted to the dtype
of the array; where a position is named twice the last one counts; the other elements are kept. -/
structure PutDone (d : DType) (old new : List Elem) (ks : List Nat) (xs : List Elem) : Prop where
  count : new.length = old.length
  kept : ∀ j : Nat, j ∉ ks → new[j]? = old[j]?
  stored : ∀ i k : Nat, ks[i]? = some k → (∀ j, i < j → ks[j]? ≠ some k) →
    ∃ x y, xs[i % xs.length]? = some x ∧ new[k]? = some y ∧ Converts d x y

end Spec
