import Mathlib.Data.List.Basic
/-!
# Specification: contraction paths
-/

namespace Spec

/-- One step of a path: the operands at positions `i < j` are taken out of the list and what they contract to is put at the end.  An
operand is named by the numbers of the arguments it was made from. -/
def contractStep (l : List (List Nat)) (ij : Nat × Nat) : Option (List (List Nat)) :=
  if ij.1 < ij.2 then
    match l[ij.1]?, l[ij.2]? with
    | some x, some y => some ((l.eraseIdx ij.2).eraseIdx ij.1 ++ [x ++ y])
    | _, _ => none
  else none

/-- A path for `n` operands: every step names two operands that are there, and in the end there is one, made from every argument once. -/
def IsPath (path : List (Nat × Nat)) (n : Nat) : Prop :=
  ∃ t, path.foldlM contractStep ((List.range n).map fun k => [k]) = some [t] ∧ t.Perm (List.range n)

end Spec
