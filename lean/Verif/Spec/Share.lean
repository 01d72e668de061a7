import Verif.Spec.Alias
/-!
# Specification: arrays with elements in common
-/

namespace Spec

/-- Two arrays have an element in common: the same cell of the same allocation. -/
def Obj.Overlap (p q : Obj) : Prop :=
  p.owner = q.owner ∧ ∃ i j, InShape p.cells.shape i ∧ InShape q.cells.shape j ∧ p.cells.get i = q.cells.get j

/-- The array has every cell of its allocation, as a new array has, or a transposed or reshaped one. -/
def World.Whole (w : World α) (p : Obj) : Prop :=
  ∃ row, w.rows[p.owner]? = some row ∧ ∀ c, c < row.length → ∃ i, InShape p.cells.shape i ∧ p.cells.get i = c

end Spec
