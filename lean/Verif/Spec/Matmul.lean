import Verif.Spec.Gufunc
import Verif.Spec.DType
import Mathlib.Algebra.BigOperators.Ring.Finset
import Mathlib.Data.Rat.Defs
import Mathlib.Algebra.Order.Ring.Rat
/-!
# Specification: products of arrays
-/

namespace Spec
open Finset

/-- The result dtypes for which a matrix product is a sum of products. -/
def productDTypes : List DType := [.f64, .f32, .c64, .c128, .i64, .i32]

/-- The signature `(m,n),(n,p)->(m,p)`. -/
def matmulSig : GuSig := ⟨[[['m'], ['n']], [['n'], ['p']]], [[['m'], ['p']]]⟩

/-- The signature `(n),(n)->()`. -/
def innerSig : GuSig := ⟨[[['n']], [['n']]], [[]]⟩

/-- The signature `(m),(n)->(m,n)`. -/
def outerSig : GuSig := ⟨[[['m']], [['n']]], [[['m'], ['n']]]⟩

/-- The product of stacks of `m × n` and `n × p` matrices whose loop dimensions broadcast to
`loop`. -/
def Nd.matmul [NonUnitalNonAssocSemiring α] (a b : Nd α) (loop : List Nat) (m n p : Nat) : Nd α :=
  { shape := loop ++ [m, p]
    get := fun idx =>
      ∑ k ∈ range n, (a.coreAt loop [m, n] (idx.take loop.length)).get [idx.getD loop.length 0, k] *
        (b.coreAt loop [n, p] (idx.take loop.length)).get [k, idx.getD (loop.length + 1) 0] }

/-- NumPy's `inner`: the sum over the last axes of both operands. -/
def Nd.inner [NonUnitalNonAssocSemiring α] (a b : Nd α) : Nd α :=
  { shape := a.shape.dropLast ++ b.shape.dropLast
    get := fun idx => ∑ k ∈ range (a.shape.getLastD 0),
      a.get (idx.take (a.shape.length - 1) ++ [k]) * b.get (idx.drop (a.shape.length - 1) ++ [k]) }

/-- The outer product of two lists of values. -/
def outerNd [Mul α] (xs ys : List α) (zero : α) : Nd α :=
  { shape := [xs.length, ys.length]
    get := fun idx => xs.getD (idx.getD 0 0) zero * ys.getD (idx.getD 1 0) zero }

/-- The Kronecker product of two arrays of the same rank: along every axis the index splits into
a quotient for `a` and a remainder for `b`. -/
def Nd.kron [Mul α] (a b : Nd α) : Nd α :=
  { shape := List.zipWith (· * ·) a.shape b.shape
    get := fun idx => a.get (List.zipWith (· / ·) idx b.shape) * b.get (List.zipWith (· % ·) idx b.shape) }

/-- Leading axes of length 1 up to rank `d`. -/
def Nd.padTo (a : Nd α) (d : Nat) : Nd α :=
  { shape := List.replicate (d - a.shape.length) 1 ++ a.shape, get := fun idx => a.get (idx.drop (d - a.shape.length)) }

/-- `tensordot` over one axis of each operand: the other axes of `a`, then those of `b`. -/
def Nd.tensordot1 [NonUnitalNonAssocSemiring α] (a b : Nd α) (p q : Nat) : Nd α :=
  { shape := a.shape.eraseIdx p ++ b.shape.eraseIdx q
    get := fun idx => ∑ k ∈ range (a.shape.getD p 0),
      a.get ((idx.take (a.shape.length - 1)).insertIdx p k) * b.get ((idx.drop (a.shape.length - 1)).insertIdx q k) }

/-- The value of a finite 64-bit float pattern. -/
def ieeeValue (x : BitVec 64) : ℚ :=
  let e := (x.extractLsb' 52 11).toNat
  let f := (x.extractLsb' 0 52).toNat
  (if x.msb then -1 else 1) *
    (if e = 0 then (f : ℚ) / 2 ^ 1074 else if e ≤ 1075 then (2 ^ 52 + f : ℚ) / 2 ^ (1075 - e) else (2 ^ 52 + f : ℚ) * 2 ^ (e - 1075))

end Spec
