import Verif.Spec.Linalg
import Verif.Spec.LeastSquares
import Mathlib.LinearAlgebra.Matrix.Rank
import Mathlib.Algebra.Order.BigOperators.Ring.Finset
import Mathlib.Algebra.Order.Field.Basic
import Mathlib.Tactic.Linarith
import Mathlib.Tactic.Ring
import Mathlib.Tactic.Abel
import Mathlib.Tactic.FieldSimp
import Mathlib.Data.List.GetD
/-!
# Consequences of a singular value decomposition

Plain linear algebra over an ordered field, from the contract `IsSvd`.
-/

namespace Rumpy
open Spec Matrix

variable {K : Type} [Field K] [LinearOrder K] [IsStrictOrderedRing K]

theorem dot_self_nonneg {n : Nat} (x : Fin n → K) : 0 ≤ x ⬝ᵥ x := Finset.sum_nonneg fun i _ => mul_self_nonneg (x i)

theorem dot_self_eq_zero {n : Nat} {x : Fin n → K} (h : x ⬝ᵥ x = 0) : x = 0 := by
  funext i
  have := (Finset.sum_eq_zero_iff_of_nonneg (fun i _ => mul_self_nonneg (x i))).1 h i (Finset.mem_univ i)
  exact mul_self_eq_zero.1 this

theorem dot_mulVec {m n : Nat} (U : Matrix (Fin m) (Fin n) K) (x : Fin m → K) (y : Fin n → K) :
    x ⬝ᵥ (U *ᵥ y) = (Uᵀ *ᵥ x) ⬝ᵥ y := by
  rw [Matrix.dotProduct_mulVec, Matrix.mulVec_transpose]

/-- Multiplying by orthonormal columns keeps lengths. -/
theorem orth_dot {m k : Nat} {U : Matrix (Fin m) (Fin k) K} (h : Uᵀ * U = 1) (y : Fin k → K) :
    (U *ᵥ y) ⬝ᵥ (U *ᵥ y) = y ⬝ᵥ y := by
  rw [dot_mulVec, Matrix.mulVec_mulVec, h, Matrix.one_mulVec]

/-- Bessel's inequality. -/
theorem bessel {n k : Nat} {V : Matrix (Fin n) (Fin k) K} (h : Vᵀ * V = 1) (x : Fin n → K) :
    (Vᵀ *ᵥ x) ⬝ᵥ (Vᵀ *ᵥ x) ≤ x ⬝ᵥ x := by
  have h0 := dot_self_nonneg (x - V *ᵥ (Vᵀ *ᵥ x))
  rw [sub_dotProduct, dotProduct_sub, dotProduct_sub, orth_dot h, dotProduct_comm (V *ᵥ _) x, dot_mulVec] at h0
  linarith

variable {m n : Nat} {A : Nat → Nat → K} {d : Svd K}

/-- The matrix applied to a vector, in singular coordinates. -/
theorem svd_mulVec (h : IsSvd m n A d) (x : Fin n → K) : gridMatrix m n A *ᵥ x =
    gridMatrix m (min m n) d.u *ᵥ fun l => d.sv (min m n) l * ((gridMatrix n (min m n) d.v)ᵀ *ᵥ x) l := by
  rw [h.eq, ← Matrix.mulVec_mulVec, ← Matrix.mulVec_mulVec]
  congr 1
  funext l
  rw [Matrix.mulVec_diagonal]

theorem svd_gain (h : IsSvd m n A d) (x : Fin n → K) : (gridMatrix m n A *ᵥ x) ⬝ᵥ (gridMatrix m n A *ᵥ x) =
    ∑ l, d.sv (min m n) l ^ 2 * (((gridMatrix n (min m n) d.v)ᵀ *ᵥ x) l) ^ 2 := by
  rw [svd_mulVec h, orth_dot h.left]
  refine Finset.sum_congr rfl fun l _ => ?_
  ring

theorem sv_nonneg (h : IsSvd m n A d) (l : Fin (min m n)) : 0 ≤ d.sv (min m n) l := by
  have hl : (l : Nat) < d.s.length := by rw [h.count]; exact l.2
  show 0 ≤ d.s.getD l 0
  rw [List.getD_eq_getElem _ _ hl]
  exact h.nonneg _ (List.getElem_mem hl)

theorem sv_le (h : IsSvd m n A d) {i j : Fin (min m n)} (hij : i ≤ j) : d.sv (min m n) j ≤ d.sv (min m n) i := by
  rcases eq_or_lt_of_le hij with e | hlt
  · rw [e]
  · have hl : (j : Nat) < d.s.length := by rw [h.count]; exact j.2
    have hl' : (i : Nat) < d.s.length := by rw [h.count]; exact i.2
    show d.s.getD j 0 ≤ d.s.getD i 0
    rw [List.getD_eq_getElem _ _ hl, List.getD_eq_getElem _ _ hl']
    exact List.pairwise_iff_getElem.1 h.sorted i j _ _ hlt

/-- The first singular value bounds the gain. -/
theorem svd_gain_le (h : IsSvd m n A d) (hk : 0 < min m n) (x : Fin n → K) :
    (gridMatrix m n A *ᵥ x) ⬝ᵥ (gridMatrix m n A *ᵥ x) ≤ d.s.getD 0 0 ^ 2 * (x ⬝ᵥ x) := by
  rw [svd_gain h]
  have h1 : ∑ l, d.sv (min m n) l ^ 2 * (((gridMatrix n (min m n) d.v)ᵀ *ᵥ x) l) ^ 2 ≤
      ∑ l, d.s.getD 0 0 ^ 2 * (((gridMatrix n (min m n) d.v)ᵀ *ᵥ x) l) ^ 2 := by
    refine Finset.sum_le_sum fun l _ => mul_le_mul_of_nonneg_right ?_ (sq_nonneg _)
    exact pow_le_pow_left₀ (sv_nonneg h l) (sv_le h (i := ⟨0, hk⟩) (Nat.zero_le _)) 2
  refine h1.trans ?_
  rw [← Finset.mul_sum]
  refine mul_le_mul_of_nonneg_left ?_ (sq_nonneg _)
  have := bessel h.right x
  refine le_trans (le_of_eq ?_) this
  exact Finset.sum_congr rfl fun l _ => by ring

/-- Right singular vectors reach their singular value. -/
theorem svd_gain_at (h : IsSvd m n A d) (l : Fin (min m n)) : ∃ x : Fin n → K, x ⬝ᵥ x = 1 ∧
    (gridMatrix m n A *ᵥ x) ⬝ᵥ (gridMatrix m n A *ᵥ x) = d.sv (min m n) l ^ 2 := by
  refine ⟨gridMatrix n (min m n) d.v *ᵥ Pi.single l 1, ?_, ?_⟩
  · rw [orth_dot h.right]; simp
  · rw [svd_gain h, Matrix.mulVec_mulVec, h.right, Matrix.one_mulVec]
    rw [Finset.sum_eq_single l]
    · simp
    · intro b _ hb; simp [hb]
    · simp

/-- With no more columns than rows, the last singular value bounds the gain from below. -/
theorem svd_gain_ge (h : IsSvd m n A d) (hnm : n ≤ m) (hn : 0 < n) (x : Fin n → K) :
    d.s.getD (d.s.length - 1) 0 ^ 2 * (x ⬝ᵥ x) ≤ (gridMatrix m n A *ᵥ x) ⬝ᵥ (gridMatrix m n A *ᵥ x) := by
  have hk : min m n = n := by omega
  have hr := h.right
  have hx : ((gridMatrix n (min m n) d.v)ᵀ *ᵥ x) ⬝ᵥ ((gridMatrix n (min m n) d.v)ᵀ *ᵥ x) = x ⬝ᵥ x := by
    rw [hk] at hr ⊢
    have := mul_eq_one_comm.1 hr
    rw [← dot_mulVec, Matrix.mulVec_mulVec, this, Matrix.one_mulVec]
  rw [svd_gain h, ← hx, dotProduct, Finset.mul_sum]
  refine Finset.sum_le_sum fun l _ => ?_
  rw [← sq]
  refine mul_le_mul_of_nonneg_right ?_ (sq_nonneg _)
  have hl : d.s.length - 1 < min m n := by rw [h.count]; omega
  have h1 := sv_nonneg h ⟨d.s.length - 1, hl⟩
  have h2 : d.sv (min m n) ⟨d.s.length - 1, hl⟩ ≤ d.sv (min m n) l :=
    sv_le h (by
      have := l.2
      show (l : Nat) ≤ d.s.length - 1
      rw [h.count]; omega)
  exact pow_le_pow_left₀ h1 h2 2

/-- The rank is the number of non-zero singular values. -/
theorem svd_rank (h : IsSvd m n A d) : (gridMatrix m n A).rank = Fintype.card {i // d.sv (min m n) i ≠ 0} := by
  rw [← Matrix.rank_diagonal]
  apply le_antisymm
  · rw [h.eq]
    exact (Matrix.rank_mul_le_left _ _).trans (Matrix.rank_mul_le_right _ _)
  · have e : Matrix.diagonal (d.sv (min m n)) =
        (gridMatrix m (min m n) d.u)ᵀ * gridMatrix m n A * gridMatrix n (min m n) d.v := by
      rw [h.eq]
      calc Matrix.diagonal (d.sv (min m n)) = 1 * Matrix.diagonal (d.sv (min m n)) * 1 := by simp
        _ = ((gridMatrix m (min m n) d.u)ᵀ * gridMatrix m (min m n) d.u) * Matrix.diagonal (d.sv (min m n)) *
            ((gridMatrix n (min m n) d.v)ᵀ * gridMatrix n (min m n) d.v) := by rw [h.left, h.right]
        _ = _ := by simp only [Matrix.mul_assoc]
    rw [e]
    exact (Matrix.rank_mul_le_left _ _).trans (Matrix.rank_mul_le_right _ _)

/-- The diagonal with inverted singular values. -/
def invSv (d : Svd K) (k : Nat) : Fin k → K := fun l => if d.sv k l = 0 then 0 else 1 / d.sv k l

theorem sv_inv_sv (k : Nat) (l : Fin k) : d.sv k l * invSv d k l * d.sv k l = d.sv k l := by
  unfold invSv; split
  · rename_i h; simp [h]
  · rename_i h; field_simp

theorem inv_sv_inv (k : Nat) (l : Fin k) : invSv d k l * d.sv k l * invSv d k l = invSv d k l := by
  unfold invSv; split
  · simp
  · rename_i h; field_simp

/-- The pseudo-inverse of the decomposition. -/
def svdPinv (m n : Nat) (d : Svd K) : Matrix (Fin n) (Fin m) K :=
  gridMatrix n (min m n) d.v * Matrix.diagonal (invSv d (min m n)) * (gridMatrix m (min m n) d.u)ᵀ

theorem svd_mul_pinv (h : IsSvd m n A d) : gridMatrix m n A * svdPinv m n d =
    gridMatrix m (min m n) d.u * Matrix.diagonal (fun l => d.sv (min m n) l * invSv d (min m n) l) * (gridMatrix m (min m n) d.u)ᵀ := by
  unfold svdPinv
  rw [h.eq]
  calc _ = gridMatrix m (min m n) d.u * Matrix.diagonal (d.sv (min m n)) *
      ((gridMatrix n (min m n) d.v)ᵀ * gridMatrix n (min m n) d.v) * Matrix.diagonal (invSv d (min m n)) * (gridMatrix m (min m n) d.u)ᵀ := by
        simp only [Matrix.mul_assoc]
    _ = _ := by rw [h.right, Matrix.mul_one, Matrix.mul_assoc (gridMatrix m (min m n) d.u), Matrix.diagonal_mul_diagonal]

theorem svd_pinv_mul (h : IsSvd m n A d) : svdPinv m n d * gridMatrix m n A =
    gridMatrix n (min m n) d.v * Matrix.diagonal (fun l => invSv d (min m n) l * d.sv (min m n) l) * (gridMatrix n (min m n) d.v)ᵀ := by
  unfold svdPinv
  rw [h.eq]
  calc _ = gridMatrix n (min m n) d.v * Matrix.diagonal (invSv d (min m n)) *
      ((gridMatrix m (min m n) d.u)ᵀ * gridMatrix m (min m n) d.u) * Matrix.diagonal (d.sv (min m n)) * (gridMatrix n (min m n) d.v)ᵀ := by
        simp only [Matrix.mul_assoc]
    _ = _ := by rw [h.left, Matrix.mul_one, Matrix.mul_assoc (gridMatrix n (min m n) d.v), Matrix.diagonal_mul_diagonal]

theorem pinv_one (h : IsSvd m n A d) : gridMatrix m n A * svdPinv m n d * gridMatrix m n A = gridMatrix m n A := by
  rw [svd_mul_pinv h]
  conv_lhs => rw [h.eq]
  calc _ = gridMatrix m (min m n) d.u * (Matrix.diagonal (fun l => d.sv (min m n) l * invSv d (min m n) l) *
        ((gridMatrix m (min m n) d.u)ᵀ * gridMatrix m (min m n) d.u) * Matrix.diagonal (d.sv (min m n))) * (gridMatrix n (min m n) d.v)ᵀ := by
        simp only [Matrix.mul_assoc]
    _ = gridMatrix m (min m n) d.u * Matrix.diagonal (d.sv (min m n)) * (gridMatrix n (min m n) d.v)ᵀ := by
        rw [h.left, Matrix.mul_one, Matrix.diagonal_mul_diagonal]
        simp only [sv_inv_sv]
    _ = _ := h.eq.symm

theorem pinv_two (h : IsSvd m n A d) : svdPinv m n d * gridMatrix m n A * svdPinv m n d = svdPinv m n d := by
  rw [svd_pinv_mul h]
  conv_lhs => rw [svdPinv]
  calc _ = gridMatrix n (min m n) d.v * (Matrix.diagonal (fun l => invSv d (min m n) l * d.sv (min m n) l) *
        ((gridMatrix n (min m n) d.v)ᵀ * gridMatrix n (min m n) d.v) * Matrix.diagonal (invSv d (min m n))) * (gridMatrix m (min m n) d.u)ᵀ := by
        simp only [Matrix.mul_assoc]
    _ = gridMatrix n (min m n) d.v * Matrix.diagonal (invSv d (min m n)) * (gridMatrix m (min m n) d.u)ᵀ := by
        rw [h.right, Matrix.mul_one, Matrix.diagonal_mul_diagonal]
        simp only [inv_sv_inv]
    _ = _ := rfl

theorem pinv_three (h : IsSvd m n A d) : (gridMatrix m n A * svdPinv m n d)ᵀ = gridMatrix m n A * svdPinv m n d := by
  rw [svd_mul_pinv h, Matrix.transpose_mul, Matrix.transpose_mul, Matrix.transpose_transpose, Matrix.diagonal_transpose, Matrix.mul_assoc]

theorem pinv_four (h : IsSvd m n A d) : (svdPinv m n d * gridMatrix m n A)ᵀ = svdPinv m n d * gridMatrix m n A := by
  rw [svd_pinv_mul h, Matrix.transpose_mul, Matrix.transpose_mul, Matrix.transpose_transpose, Matrix.diagonal_transpose, Matrix.mul_assoc]

/-- With a pseudo-inverse `X`, `X b` satisfies the normal equations. -/
theorem pinv_normal {m n : Nat} {A : Matrix (Fin m) (Fin n) K} {X : Matrix (Fin n) (Fin m) K} (h : IsPinv A X) (b : Fin m → K) :
    Aᵀ *ᵥ (A *ᵥ (X *ᵥ b) - b) = 0 := by
  rw [Matrix.mulVec_sub, Matrix.mulVec_mulVec, Matrix.mulVec_mulVec, Matrix.mul_assoc, ← h.left, ← Matrix.transpose_mul, h.inner, sub_self]

/-- The normal equations give a least-squares solution. -/
theorem normal_min {m n : Nat} {A : Matrix (Fin m) (Fin n) K} {b : Fin m → K} {x : Fin n → K} (h : Aᵀ *ᵥ (A *ᵥ x - b) = 0) (y : Fin n → K) :
    (A *ᵥ x - b) ⬝ᵥ (A *ᵥ x - b) ≤ (A *ᵥ y - b) ⬝ᵥ (A *ᵥ y - b) := by
  have e : A *ᵥ y - b = (A *ᵥ x - b) + A *ᵥ (y - x) := by rw [Matrix.mulVec_sub]; abel
  have o : (A *ᵥ x - b) ⬝ᵥ (A *ᵥ (y - x)) = 0 := by rw [dot_mulVec, h, zero_dotProduct]
  rw [e, add_dotProduct, dotProduct_add, dotProduct_add, dotProduct_comm (A *ᵥ (y - x)) (A *ᵥ x - b), o]
  have := dot_self_nonneg (A *ᵥ (y - x))
  linarith

/-- Among the vectors with the same residual, `X b` is the shortest. -/
theorem pinv_shortest {m n : Nat} {A : Matrix (Fin m) (Fin n) K} {X : Matrix (Fin n) (Fin m) K} (h : IsPinv A X) (b : Fin m → K)
    (y : Fin n → K) (hy : (A *ᵥ y - b) ⬝ᵥ (A *ᵥ y - b) = (A *ᵥ (X *ᵥ b) - b) ⬝ᵥ (A *ᵥ (X *ᵥ b) - b)) :
    (X *ᵥ b) ⬝ᵥ (X *ᵥ b) ≤ y ⬝ᵥ y := by
  have hn := pinv_normal h b
  have e : A *ᵥ y - b = (A *ᵥ (X *ᵥ b) - b) + A *ᵥ (y - X *ᵥ b) := by rw [Matrix.mulVec_sub A y]; abel
  have o : (A *ᵥ (X *ᵥ b) - b) ⬝ᵥ (A *ᵥ (y - X *ᵥ b)) = 0 := by rw [dot_mulVec, hn, zero_dotProduct]
  rw [e, add_dotProduct, dotProduct_add, dotProduct_add, dotProduct_comm (A *ᵥ (y - X *ᵥ b)) _, o] at hy
  have hz : A *ᵥ (y - X *ᵥ b) = 0 := dot_self_eq_zero (by linarith)
  have hx : X *ᵥ b = (X * A)ᵀ *ᵥ (X *ᵥ b) := by rw [h.right, Matrix.mulVec_mulVec, h.outer]
  have ortho : (y - X *ᵥ b) ⬝ᵥ (X *ᵥ b) = 0 := by
    rw [hx, dot_mulVec, Matrix.transpose_transpose, ← Matrix.mulVec_mulVec, ← hx, hz, Matrix.mulVec_zero, zero_dotProduct]
  have e2 : y = X *ᵥ b + (y - X *ᵥ b) := by abel
  have : y ⬝ᵥ y = (X *ᵥ b) ⬝ᵥ (X *ᵥ b) + (y - X *ᵥ b) ⬝ᵥ (y - X *ᵥ b) := by
    conv_lhs => rw [e2]
    rw [add_dotProduct, dotProduct_add, dotProduct_add, ortho, dotProduct_comm (X *ᵥ b) (y - X *ᵥ b), ortho]
    ring
  rw [this]
  have := dot_self_nonneg (y - X *ᵥ b)
  linarith

theorem svdPinv_is (h : IsSvd m n A d) : IsPinv (gridMatrix m n A) (svdPinv m n d) :=
  ⟨pinv_one h, pinv_two h, pinv_three h, pinv_four h⟩

theorem pinv_leastSquares {m n : Nat} {A : Matrix (Fin m) (Fin n) K} {X : Matrix (Fin n) (Fin m) K} (h : IsPinv A X) (b : Fin m → K) :
    IsLeastSquares A b (X *ᵥ b) :=
  ⟨fun y => normal_min (pinv_normal h b) y, fun y hy => pinv_shortest h b y hy⟩

theorem svd_largest (h : IsSvd m n A d) (hk : 0 < min m n) : IsLargestGain (gridMatrix m n A) (d.s.getD 0 0) :=
  ⟨sv_nonneg h ⟨0, hk⟩, svd_gain_le h hk, svd_gain_at h ⟨0, hk⟩⟩

theorem svd_smallest (h : IsSvd m n A d) (hnm : n ≤ m) (hn : 0 < n) :
    IsSmallestGain (gridMatrix m n A) (d.s.getD (d.s.length - 1) 0) := by
  have hl : d.s.length - 1 < min m n := by rw [h.count]; omega
  exact ⟨sv_nonneg h ⟨d.s.length - 1, hl⟩, svd_gain_ge h hnm hn, svd_gain_at h ⟨d.s.length - 1, hl⟩⟩

end Rumpy
