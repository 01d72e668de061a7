import Verif.Spec.Cast
/-!
# Specification: copying into an array, and the layout of an array in memory
-/

namespace Spec

/-- An element that counts as true in a mask: everything but zero. -/
def Elem.Truthy (x : Elem) : Prop := x.number ≠ some (0, 0)

/-- What NumPy promises of `copyto(dst, src, where=mask)`.  `dst` and `src` give the memory cell of each
element, `src` already broadcast to the shape of `dst`; `sel` says where the mask is true; `old` and `new` are
memory before and after.  The selected elements become the values that the source had before, converted to the
dtype `b` of `dst`, and no other cell of memory changes. -/
structure CopiedTo (b : DType) (old new : Int → Elem) (dst src : Nd Int) (sel : List Nat → Prop) : Prop where
  copied : ∀ i, InShape dst.shape i → sel i → Converts b (old (src.get i)) (new (dst.get i))
  others : ∀ p, (∀ i, InShape dst.shape i → sel i → dst.get i ≠ p) → new p = old p

/-- The elements lie one after the other in row-major order. -/
def LaidOutC (cells : Nd Int) (item : Nat) : Prop :=
  ∃ start : Int, ∀ i, InShape cells.shape i → cells.get i = start + ((item * rank cells.shape i : Nat) : Int)

/-- The elements lie one after the other in column-major order. -/
def LaidOutF (cells : Nd Int) (item : Nat) : Prop :=
  ∃ start : Int, ∀ i, InShape cells.shape i → cells.get i = start + ((item * rankF cells.shape i : Nat) : Int)

end Spec
