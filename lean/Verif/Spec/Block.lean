import Verif.Spec.Stack
import Mathlib.Data.List.Defs
/-!
# Specification: assembling an array from nested lists of blocks
-/

namespace Spec

/-- Nested lists with arrays as leaves. -/
inductive Nested (α : Type u) where
  | leaf (a : α)
  | list (l : List (Nested α))

/-- An array with axes of length 1 put in front until it has `n` axes. -/
def Nd.toRank (n : Nat) (a : Nd α) : Nd α :=
  ⟨List.replicate (n - a.shape.length) 1 ++ a.shape, fun idx => a.get (idx.drop (n - a.shape.length))⟩

/-- Every array lies below exactly `depth` lists, none of which is empty, and has `n` axes. -/
def Nested.Uniform (n : Nat) : Nat → Nested (Nd α) → Prop
  | 0, .leaf a => a.shape.length = n
  | depth + 1, .list l => l ≠ [] ∧ ∀ t ∈ l, t.Uniform n depth
  | _, _ => False

/-- What `np.block` assembles from arrays below `depth` lists, as an array with `n` axes: the innermost lists are laid side by
side along the last axis, the lists of these along the last but one, and so on outwards. -/
def IsBlock (n : Nat) : Nat → Nested (Nd α) → Nd α → Prop
  | 0, .leaf a, r => r.Same (a.toRank n)
  | depth + 1, .list l, r =>
    ∃ parts, List.Forall₂ (IsBlock n depth) l parts ∧ CanJoin (n - (depth + 1)) parts ∧ IsJoin (n - (depth + 1)) parts r
  | _, _, _ => False

end Spec
