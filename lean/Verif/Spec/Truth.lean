import Verif.Spec.Nd

/-!
# The list of the indices at which a property of the elements holds
-/

namespace Spec

/-- `ks` lists the indices of the elements with the property, each once, in row-major order. -/
structure Lists {α : Type} (a : Nd α) (p : α → Prop) (ks : List (List Nat)) : Prop where
  which : ∀ i, i ∈ ks ↔ InShape a.shape i ∧ p (a.get i)
  order : ks.Pairwise fun i j => rank a.shape i < rank a.shape j

end Spec
