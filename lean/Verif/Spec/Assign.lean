import Verif.Spec.Nd
/-!
# Specification: assigning elements one after another
-/

namespace Spec

/-- Assign at flat positions, in order (`for k, x in zip(ks, xs): a.flat[k] = x`). -/
def assignFlat (a : List α) (kx : List (Nat × α)) : List α := kx.foldl (fun l p => l.set p.1 p.2) a

/-- Assign at indices, in order (`for i, x in zip(is, xs): a[i] = x`). -/
def Nd.assign (a : Nd α) (ix : List (List Nat × α)) : Nd α :=
  ix.foldl (fun a p => { shape := a.shape, get := fun i => if i = p.1 then p.2 else a.get i }) a

/-- The `j`-th value when a list of values is repeated as often as needed. -/
def cycled (xs : List α) (j : Nat) : Option α := xs[j % xs.length]?

end Spec
