import Verif.Spec.Nd
import Mathlib.LinearAlgebra.Matrix.Determinant.Basic
import Mathlib.LinearAlgebra.Matrix.NonsingularInverse
/-!
# Linear algebra: matrices of arrays, and what is assumed of the factorisation library

rumpy hands matrices to the library faer and copies its results back.  faer is not part of the
repository; what it promises is stated here as contracts, in exact arithmetic.
-/

namespace Spec

/-- The matrix shown by a 2-D array. -/
def Nd.matrix (a : Nd K) (m n : Nat) : Matrix (Fin m) (Fin n) K := fun i j => a.get [(i : Nat), (j : Nat)]

/-- The vector shown by a 1-D array. -/
def Nd.vector (a : Nd K) (n : Nat) : Fin n → K := fun i => a.get [(i : Nat)]

/-- An array of shape `s ++ t` as a matrix: rows are the positions of `s`, columns those of `t`, both in
row-major order. -/
def Nd.unfolded (a : Nd K) (s t : List Nat) (p q : Nat) : Matrix (Fin p) (Fin q) K :=
  fun i j => a.get ((indices s).getD i [] ++ (indices t).getD j [])

/-- The matrix held by the library: entries by row and column. -/
def gridMatrix (m n : Nat) (f : Nat → Nat → K) : Matrix (Fin m) (Fin n) K := fun i j => f i j

/-- The array with given entries. -/
def ofGrid (m n : Nat) (f : Nat → Nat → K) : Nd K := ⟨[m, n], fun idx => f (idx.getD 0 0) (idx.getD 1 0)⟩

/-- The 1-D array with given entries. -/
def ofVec (n : Nat) (f : Nat → K) : Nd K := ⟨[n], fun idx => f (idx.getD 0 0)⟩

/-- The symmetric matrix whose lower triangle is that of `A`. -/
def lowerSym {n : Nat} (A : Matrix (Fin n) (Fin n) K) : Matrix (Fin n) (Fin n) K :=
  fun i j => if j ≤ i then A i j else A j i

/-- What `partial_piv_lu` returns: the upper factor and the number of row exchanges. -/
structure Plu (K : Type u) where
  u : Nat → Nat → K
  swaps : Nat

/-- `P A = L U` with `L` unit lower triangular and `U` upper triangular, `P` a permutation whose sign is
given by the number of exchanges. -/
def IsPlu [CommRing K] (n : Nat) (A : Nat → Nat → K) (r : Plu K) : Prop :=
  ∃ (σ : Equiv.Perm (Fin n)) (L : Matrix (Fin n) (Fin n) K),
    (∀ i, L i i = 1) ∧ (∀ i j, i < j → L i j = 0) ∧ (∀ i j : Fin n, j < i → r.u i j = 0) ∧
    (gridMatrix n n A).submatrix σ id = L * gridMatrix n n r.u ∧ Equiv.Perm.sign σ = (-1) ^ r.swaps

/-- `.inverse()` of a factorised matrix, which is only meaningful for an invertible one. -/
def IsInverse [CommRing K] (n : Nat) (A X : Nat → Nat → K) : Prop :=
  IsUnit (gridMatrix n n A).det → gridMatrix n n A * gridMatrix n n X = 1

/-- `.solve(b)` of a factorised matrix. -/
def IsSolution [CommRing K] (n m : Nat) (A B X : Nat → Nat → K) : Prop :=
  IsUnit (gridMatrix n n A).det → gridMatrix n n A * gridMatrix n m X = gridMatrix n m B

/-- Thin QR: `A = Q R`, orthonormal columns, upper triangular `R`. -/
def IsThinQr [CommRing K] (m n : Nat) (A Q R : Nat → Nat → K) : Prop :=
  gridMatrix m n A = gridMatrix m (min m n) Q * gridMatrix (min m n) n R ∧
  (gridMatrix m (min m n) Q).transpose * gridMatrix m (min m n) Q = 1 ∧
  ∀ i j, i < min m n → j < i → R i j = 0

/-- What `thin_svd` returns. -/
structure Svd (K : Type u) where
  u : Nat → Nat → K
  s : List K
  v : Nat → Nat → K

/-- The singular values as a vector. -/
def Svd.sv [Zero K] (d : Svd K) (k : Nat) : Fin k → K := fun i => d.s.getD i 0

/-- Thin SVD: `A = U diag(s) Vᵀ`, orthonormal columns, `s` non-negative and descending. -/
structure IsSvd [CommRing K] [LE K] (m n : Nat) (A : Nat → Nat → K) (d : Svd K) : Prop where
  count : d.s.length = min m n
  nonneg : ∀ x ∈ d.s, 0 ≤ x
  sorted : d.s.Pairwise fun x y => y ≤ x
  left : (gridMatrix m (min m n) d.u).transpose * gridMatrix m (min m n) d.u = 1
  right : (gridMatrix n (min m n) d.v).transpose * gridMatrix n (min m n) d.v = 1
  eq : gridMatrix m n A =
    gridMatrix m (min m n) d.u * Matrix.diagonal (d.sv (min m n)) * (gridMatrix n (min m n) d.v).transpose

/-- Decomposition of the symmetric matrix given by the lower triangle: ascending eigenvalues, orthogonal
matrix of eigenvectors. -/
structure IsEigh [CommRing K] [LE K] (n : Nat) (A : Nat → Nat → K) (w : Nat → K) (V : Nat → Nat → K) : Prop where
  sorted : ∀ i j, i ≤ j → j < n → w i ≤ w j
  orth : (gridMatrix n n V).transpose * gridMatrix n n V = 1
  eq : lowerSym (gridMatrix n n A) * gridMatrix n n V = gridMatrix n n V * Matrix.diagonal fun i : Fin n => w i

/-- Cholesky factor of the symmetric matrix given by the lower triangle. -/
structure IsCholesky [CommRing K] [LT K] (n : Nat) (A L : Nat → Nat → K) : Prop where
  lower : ∀ i j, i < j → j < n → L i j = 0
  pos : ∀ i, i < n → 0 < L i i
  eq : gridMatrix n n L * (gridMatrix n n L).transpose = lowerSym (gridMatrix n n A)

/-- General eigendecomposition over the extension `C` of the scalars. -/
def IsEig [CommRing K] [CommRing C] (ι : K →+* C) (n : Nat) (A : Nat → Nat → K) (w : Nat → C)
    (V : Nat → Nat → C) : Prop :=
  (gridMatrix n n A).map ι * gridMatrix n n V = gridMatrix n n V * Matrix.diagonal fun i : Fin n => w i

end Spec
