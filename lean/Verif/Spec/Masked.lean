import Verif.Spec.Assign
import Verif.Spec.View
/-!
# Specification: choosing and replacing elements by conditions, resizing, differences
-/

namespace Spec

/-- `extract`: the elements whose condition is true, in order. -/
def extracted (cond : List Bool) (a : List α) : List α := ((cond.zip a).filter (·.1)).map (·.2)

/-- `place`: the first true position gets the first value, the second the second, and so on; the
values are repeated as often as needed. Other positions keep their element. -/
def IsPlaced (mask : List Bool) (vals old new : List α) : Prop :=
  new.length = old.length ∧ ∀ k x, old[k]? = some x →
    new[k]? = if mask[k]? = some true then cycled vals ((mask.take k).count true) else some x

/-- `putmask`: a true position gets the value at the same position in the repeated list of values. -/
def IsPutmask (mask : List Bool) (vals old new : List α) : Prop :=
  new.length = old.length ∧ ∀ k x, old[k]? = some x → new[k]? = if mask[k]? = some true then cycled vals k else some x

/-- `select`: the choice of the first true condition, or else the default. -/
def firstChoice (cs : List (Bool × α)) (default : α) : α := ((cs.find? (·.1)).map (·.2)).getD default

/-- `piecewise`: conditions are applied one after the other, so the last true one counts. -/
def lastChoice (cs : List (Bool × α)) (default : α) : α := firstChoice cs.reverse default

/-- Differences of neighbours. -/
def neighbourDiffs [Sub α] : List α → List α
  | a :: b :: r => (b - a) :: neighbourDiffs (b :: r)
  | _ => []

/-- The subarray at position `k` of an axis. -/
def Nd.atAxis (a : Nd α) (axis k : Nat) : Nd α :=
  { shape := a.shape.eraseIdx axis, get := fun idx => a.get (idx.insertIdx axis k) }

end Spec
