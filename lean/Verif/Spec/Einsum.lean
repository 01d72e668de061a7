import Verif.Spec.Nd
import Verif.Spec.Gufunc
import Mathlib.Algebra.BigOperators.Group.List.Basic
import Mathlib.Algebra.Ring.Defs
/-!
# Specification: Einstein sums
-/

namespace Spec

/-- The value of a letter when the letters `ls` have the values `x`. -/
def assign (ls : List Char) (x : List Nat) (c : Char) : Nat := x.getD (ls.idxOf c) 0

/-- The letters of a subscript, each once. -/
def einLetters (inputs : List (List Char)) (output : List Char) : List Char := (inputs.flatten ++ output).dedup

/-- The product of the entries of the operands for given values of the letters. -/
def einTerm [Mul R] [One R] (inputs : List (List Char)) (ops : List (Nd R)) (σ : Char → Nat) : R :=
  (List.zipWith (fun s (a : Nd R) => a.get (s.map σ)) inputs ops).prod

/-- The Einstein sum: at each output index, the sum over all values of the letters that give this output index, of the
product of the entries of the operands. -/
def einsum [CommSemiring R] (inputs : List (List Char)) (output : List Char) (dim : Char → Nat) (ops : List (Nd R)) : Nd R :=
  let ls := einLetters inputs output
  { shape := output.map dim
    get := fun idx =>
      (((indices (ls.map dim)).filter fun x => output.map (assign ls x) = idx).map fun x => einTerm inputs ops (assign ls x)).sum }

/-- Every operand has one axis for each of its letters, and the axes of a letter have the same length everywhere. -/
def EinDims (inputs : List (List Char)) (shapes : List (List Nat)) (dim : Char → Nat) : Prop :=
  shapes = inputs.map fun s => s.map dim

/-- The letters that occur once in the operands, in alphabetical order. -/
def IsImplicitOutput (inputs : List (List Char)) (output : List Char) : Prop :=
  output.Pairwise (· < ·) ∧ ∀ c, c ∈ output ↔ inputs.flatten.count c = 1

/-- The text of a subscript: the letters of the operands separated by commas, then an arrow and the letters of the output;
without the arrow, the output is the implicit one.  White space does not count. -/
def EinText (s : List Char) (inputs : List (List Char)) (output : List Char) : Prop :=
  inputs ≠ [] ∧ (∀ t ∈ inputs, ∀ c ∈ t, c.isLower) ∧
  ((s.filter (fun c => decide ¬ IsSpace c) = commaJoin inputs ++ ['-', '>'] ++ output ∧ ∀ c ∈ output, c.isLower ∨ c = '.') ∨
   (s.filter (fun c => decide ¬ IsSpace c) = commaJoin inputs ∧ IsImplicitOutput inputs output))

end Spec
