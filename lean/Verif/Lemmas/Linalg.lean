import Verif.Model.Linalg
import Verif.Lemmas.Cumulative
import Verif.Lemmas.Create
import Verif.Lemmas.Select
import Mathlib.LinearAlgebra.Matrix.Block
/-!
# Lemmas about the linear-algebra model
-/

namespace Rumpy
open Spec

theorem inShape_pair {m n i j : Nat} (hi : i < m) (hj : j < n) : InShape [m, n] [i, j] := by
  simp [InShape, hi, hj]

/-- Both ways of handing an array to the library hand over its matrix. -/
theorem faerMat_matrix {f64 : Bool} {a : Held K} {m n : Nat} (hw : a.view.WF) (hs : a.view.shape = [m, n])
    (h8 : f64 = true → a.view.item = 8) : gridMatrix m n (faerMat f64 a m n) = a.nd.matrix m n := by
  funext i j
  have hi : InShape a.view.shape [(i : Nat), (j : Nat)] := by rw [hs]; exact inShape_pair i.2 j.2
  show faerMat f64 a m n i j = a.mem (a.view.addr [(i : Nat), (j : Nat)])
  unfold faerMat
  split
  · rename_i h
    simp only [Bool.and_eq_true] at h
    dsimp only
    rw [cFlag_addr hw h.1.1.2 hi, hs, rank_two, h8 h.1.1.1]
    rfl
  · rfl

theorem faerToRumpy_is [Zero K] (m n : Nat) (f : Nat → Nat → K) : (faerToRumpy m n f).Is (ofGrid m n f) := by
  refine ⟨rfl, ?_⟩
  show writes _ _ = (indices [m, n]).map _
  apply writes_cover (s := [m, n]) (fun idx => f (idx.getD 0 0) (idx.getD 1 0)) (by simp [size])
  · intro w hw
    simp only [List.mem_flatMap, List.mem_map, List.mem_range] at hw
    obtain ⟨i, hi, j, hj, rfl⟩ := hw
    exact ⟨[i, j], inShape_pair hi hj, by simp [rank_two]⟩
  · intro idx hi
    match idx, hi with
    | [i, j], hi =>
      simp only [InShape, and_true] at hi
      simp only [List.mem_flatMap, List.mem_map, List.mem_range]
      exact ⟨i, hi.1, j, hi.2, by simp [rank_two]⟩

theorem faerColToRumpy_is [Zero K] (n : Nat) (f : Nat → K) : (faerColToRumpy n f).Is (ofVec n f) := by
  refine ⟨rfl, ?_⟩
  show writes _ _ = (indices [n]).map _
  apply writes_cover (s := [n]) (fun idx => f (idx.getD 0 0)) (by simp [size])
  · intro w hw
    simp only [List.mem_map, List.mem_range] at hw
    obtain ⟨i, hi, rfl⟩ := hw
    exact ⟨[i], by simp [InShape, hi], by simp [rank, size]⟩
  · intro idx hi
    match idx, hi with
    | [i], hi =>
      simp only [InShape, and_true] at hi
      simp only [List.mem_map, List.mem_range]
      exact ⟨i, hi, by simp [rank, size]⟩

theorem ofGrid_matrix (m n : Nat) (f : Nat → Nat → K) : (ofGrid m n f).matrix m n = gridMatrix m n f := rfl

theorem ofVec_vector (n : Nat) (f : Nat → K) (i : Fin n) : (ofVec n f).vector n i = f i := rfl

theorem empty_is (s : List Nat) (nd : Nd K) (hs : nd.shape = s) (h : size s = 0) : Arr.Is ⟨s, []⟩ nd := by
  refine ⟨hs.symm, ?_⟩
  have : nd.toList.length = 0 := by rw [Nd.length_toList, hs, h]
  exact (List.length_eq_zero_iff.1 this).symm

theorem squareSize_eq {v : View} {n : Nat} (h : v.shape = [n, n]) : squareSize v = some n := by
  unfold squareSize; rw [h]; simp

theorem squareSize_isSome (v : View) : (squareSize v).isSome ↔ ∃ n, v.shape = [n, n] := by
  unfold squareSize
  constructor
  · intro h
    split at h
    · rename_i n n' hs
      by_cases hn : n' = n
      · exact ⟨n, by rw [hs, hn]⟩
      · rw [if_pos hn] at h; simp at h
    · simp at h
  · rintro ⟨n, hs⟩
    rw [hs]; simp

theorem matSize_eq {v : View} {m n : Nat} (h : v.shape = [m, n]) : matSize v = some (m, n) := by
  unfold matSize; rw [h]

theorem matSize_isSome (v : View) : (matSize v).isSome ↔ v.shape.length = 2 := by
  unfold matSize
  constructor
  · intro h
    split at h
    · rename_i hs; rw [hs]; rfl
    · simp at h
  · intro h
    match hv : v.shape, h with
    | [m, n], _ => simp

/-- The determinant from a factorisation with row exchanges. -/
theorem _root_.Spec.IsPlu.det_eq [CommRing K] {n : Nat} {A : Nat → Nat → K} {r : Plu K} (h : IsPlu n A r) :
    (gridMatrix n n A).det = (∏ i : Fin n, r.u i i) * (-1) ^ r.swaps := by
  obtain ⟨σ, L, h1, h2, h3, h4, h5⟩ := h
  have hL : L.det = 1 := by
    rw [Matrix.det_of_isLowerTriangular L (fun i j hij => h2 i j hij)]
    exact Finset.prod_eq_one fun i _ => h1 i
  have hU : (gridMatrix n n r.u).det = ∏ i : Fin n, r.u i i :=
    Matrix.det_of_isUpperTriangular (fun i j hij => h3 i j hij)
  have := congrArg Matrix.det h4
  rw [Matrix.det_permute, Matrix.det_mul, hL, hU, one_mul, h5] at this
  rw [← this]
  push_cast
  have e : ((-1 : K) ^ r.swaps) * (-1) ^ r.swaps = 1 := by
    rw [← pow_add, ← two_mul, pow_mul]; simp
  rw [mul_comm, ← mul_assoc, e, one_mul]

theorem swapSign_eq [CommRing K] (c : Nat) : swapSign c = (-1 : K) ^ c := by
  unfold swapSign
  split
  · rename_i h; rw [(Nat.even_iff.2 h).neg_one_pow]
  · rename_i h; rw [(Nat.odd_iff.2 (by omega)).neg_one_pow]

theorem foldl_mul_range [CommRing K] (f : Nat → K) (n : Nat) :
    (List.range n).foldl (fun d i => d * f i) 1 = ∏ i : Fin n, f i := by
  rw [Fin.prod_univ_eq_prod_range f n]
  induction n with
  | zero => simp
  | succ n ih => rw [List.range_succ, List.foldl_append, ih, Finset.prod_range_succ]; rfl

theorem prod_map_range [CommRing K] (f : Nat → K) (n : Nat) : ((List.range n).map f).prod = ∏ i : Fin n, f i := by
  rw [Fin.prod_univ_eq_prod_range f n]
  induction n with
  | zero => simp
  | succ n ih => rw [List.range_succ, List.map_append, List.prod_append, ih, Finset.prod_range_succ]; simp

theorem sum_map_range [AddCommMonoid K] (f : Nat → K) (n : Nat) : ((List.range n).map f).sum = ∑ i : Fin n, f i := by
  rw [Fin.sum_univ_eq_sum_range f n]
  induction n with
  | zero => simp
  | succ n ih => rw [List.range_succ, List.map_append, List.sum_append, ih, Finset.sum_range_succ]; simp

end Rumpy
