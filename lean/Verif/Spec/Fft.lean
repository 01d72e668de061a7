import Verif.Spec.Nd
import Mathlib.Algebra.BigOperators.Group.Finset.Basic
import Mathlib.Algebra.Field.Basic
/-!
# Specification: discrete Fourier transforms and frequency shifts
-/

namespace Spec
namespace Nd

/-- The discrete Fourier transform along one axis: `X[.., k, ..] = Σ_j x[.., j, ..] * w^(j*k)`,
where `w n` is the root of unity used for an axis of length `n`. -/
def dftAxis [CommRing K] (w : Nat → K) (a : Nd K) (axis : Nat) : Nd K :=
  { shape := a.shape
    get := fun idx => (Finset.range (a.shape.getD axis 0)).sum fun j =>
      a.get (idx.set axis j) * w (a.shape.getD axis 0) ^ (j * idx.getD axis 0) }

/-- The transform along several axes, one after the other. -/
def dft [CommRing K] (w : Nat → K) (a : Nd K) (axes : List Nat) : Nd K := axes.foldl (dftAxis w) a

/-- Every element times a constant. -/
def scale [Mul K] (c : K) (a : Nd K) : Nd K := { shape := a.shape, get := fun idx => c * a.get idx }

/-- The array shortened to the first `m` positions of an axis. -/
def shorten (a : Nd K) (axis m : Nat) : Nd K := { shape := a.shape.set axis m, get := a.get }

end Nd

/-- The one-dimensional transform of a list. -/
def dftList [CommRing K] (w : K) (xs : List K) : List K :=
  (List.range xs.length).map fun k => (Finset.range xs.length).sum fun j => xs.getD j 0 * w ^ (j * k)

/-- `r` is `a` with every axis rolled by its own amount: the element at position `k` of axis `x` moves to
position `k + shift x` (wrapping around). -/
def IsRolledAll (a r : Nd α) (shift : Nat → Nat) : Prop :=
  r.shape = a.shape ∧ ∀ i j, InShape a.shape i → InShape a.shape j →
    (∀ x, x < a.shape.length → (i.getD x 0 + shift x) % a.shape.getD x 0 = j.getD x 0) → r.get j = a.get i

end Spec
