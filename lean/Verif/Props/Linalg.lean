import Verif.Lemmas.Linalg
import Verif.Props.Broadcast
import Verif.Props.EinsumPair
import Mathlib.Analysis.SpecialFunctions.Log.Basic
import Mathlib.LinearAlgebra.Matrix.Notation
/-!
# C67: linear systems, determinants and factorisations

The library that factorises enters by the contracts of `Spec/Linalg.lean`, assumed for the matrix at hand.
-/

namespace Props
open Spec Rumpy

variable {K : Type}

/-- An array of rank 2 as the linear-algebra functions take it: any layout; float64 data has items of 8 bytes. -/
structure IsMat (f64 : Bool) (a : Held K) (m n : Nat) : Prop where
  wf : a.view.WF
  shape : a.view.shape = [m, n]
  item : f64 = true → a.view.item = 8

/-! ### det and slogdet -/

/-- C67: `det` of a square array in any layout is the determinant of its matrix. -/
theorem C67_det [CommRing K] (lu : Nat → (Nat → Nat → K) → Plu K) (f64 : Bool) (a : Held K) (n : Nat)
    (ha : IsMat f64 a n n) (hlu : ∀ M, gridMatrix n n M = a.nd.matrix n n → IsPlu n M (lu n M)) :
    Rumpy.det lu f64 a = some (a.nd.matrix n n).det := by
  have hm := faerMat_matrix ha.wf ha.shape ha.item
  unfold Rumpy.det
  rw [squareSize_eq ha.shape]
  show (if n = 0 then _ else _) = _
  by_cases h0 : n = 0
  · subst h0; simp
  · rw [if_neg h0, foldl_mul_range (fun i => (lu n (faerMat f64 a n n)).u i i), swapSign_eq, ← (hlu _ hm).det_eq, hm]

/-- C67: `det` accepts exactly the square arrays of rank 2. -/
theorem C67_det_accepts [CommRing K] (lu : Nat → (Nat → Nat → K) → Plu K) (f64 : Bool) (a : Held K) :
    (Rumpy.det lu f64 a).isSome ↔ ∃ n, a.view.shape = [n, n] := by
  rw [← squareSize_isSome]
  unfold Rumpy.det
  cases squareSize a.view with
  | none => simp
  | some n =>
    show (if n = 0 then _ else _ : Option K).isSome = true ↔ _
    by_cases h0 : n = 0 <;> simp [h0]

/-- `exp` of a logarithm that may be negative infinity. -/
noncomputable def expLog : Option ℝ → ℝ
  | none => 0
  | some x => Real.exp x

theorem slogdetLoop_eq (u : Nat → Nat → ℝ) : ∀ (is : List Nat) (sign l : ℝ), |sign| = 1 →
    let r := slogdetLoop Real.log u is sign l
    r.1 * expLog r.2 = sign * Real.exp l * (is.map fun i => u i i).prod ∧
      ((is.map fun i => u i i).prod = 0 → r = (0, none)) ∧ ((is.map fun i => u i i).prod ≠ 0 → |r.1| = 1 ∧ r.2.isSome)
  | [], sign, l, h => by simp [slogdetLoop, expLog, h]
  | i :: is, sign, l, h => by
    dsimp only
    rw [slogdetLoop]
    by_cases hd : u i i = 0
    · rw [if_pos hd]; simp [expLog, hd]
    · rw [if_neg hd]
      have hs : |if u i i < 0 then -sign else sign| = 1 := by split <;> simp [h]
      obtain ⟨h1, h2, h3⟩ := slogdetLoop_eq u is (if u i i < 0 then -sign else sign) (l + Real.log |u i i|) hs
      refine ⟨?_, ?_, ?_⟩
      · rw [h1, Real.exp_add, Real.exp_log (abs_pos.2 hd), List.map_cons, List.prod_cons]
        split
        · rename_i hn; rw [abs_of_neg hn]; ring
        · rename_i hn; rw [abs_of_nonneg (not_lt.1 hn)]; ring
      · intro hp
        rw [List.map_cons, List.prod_cons, mul_eq_zero] at hp
        exact h2 (hp.resolve_left hd)
      · intro hp
        rw [List.map_cons, List.prod_cons] at hp
        exact h3 (right_ne_zero_of_mul hp)

/-- C67: `slogdet` of a non-empty square array is a sign and a logarithm with `sign * exp(log)` the
determinant; the sign is 0 and the logarithm negative infinity exactly for a singular matrix. -/
theorem C67_slogdet_partial (lu : Nat → (Nat → Nat → ℝ) → Plu ℝ) (f64 : Bool) (a : Held ℝ) (n : Nat) (hn : n ≠ 0)
    (ha : IsMat f64 a n n) (hlu : ∀ M, gridMatrix n n M = a.nd.matrix n n → IsPlu n M (lu n M)) :
    ∃ s l, slogdet Real.log lu f64 a = some (s, l) ∧ s * expLog l = (a.nd.matrix n n).det ∧
      ((a.nd.matrix n n).det = 0 → s = 0 ∧ l = none) ∧ ((a.nd.matrix n n).det ≠ 0 → |s| = 1 ∧ l.isSome) := by
  have hm := faerMat_matrix ha.wf ha.shape ha.item
  have hd := (hlu _ hm).det_eq
  rw [hm] at hd
  set p := lu n (faerMat f64 a n n) with hp
  have hsgn : |(swapSign p.swaps : ℝ)| = 1 := by unfold swapSign; split <;> simp
  obtain ⟨h1, h2, h3⟩ := slogdetLoop_eq p.u (List.range n) (swapSign p.swaps) 0 hsgn
  have hprod : ((List.range n).map fun i => p.u i i).prod = ∏ i : Fin n, p.u i i := prod_map_range (fun i => p.u i i) n
  have hz : (a.nd.matrix n n).det = 0 ↔ ((List.range n).map fun i => p.u i i).prod = 0 := by
    rw [hprod, hd, mul_eq_zero]
    simp
  refine ⟨(slogdetLoop Real.log p.u (List.range n) (swapSign p.swaps) 0).1,
    (slogdetLoop Real.log p.u (List.range n) (swapSign p.swaps) 0).2, ?_, ?_, ?_, ?_⟩
  · unfold slogdet
    rw [squareSize_eq ha.shape]
    show (if n = 0 then _ else _) = _
    rw [if_neg hn]
  · rw [h1, Real.exp_zero, mul_one, hd, hprod, swapSign_eq, mul_comm]
  · intro h
    have := h2 (hz.1 h)
    exact ⟨congrArg Prod.fst this, congrArg Prod.snd this⟩
  · intro h
    exact h3 (fun e => h (hz.2 e))

/-- Against C67: the empty matrix has determinant 1, but `slogdet` gives the logarithm negative infinity, so
`sign * exp(log)` is 0. -/
theorem C67_slogdet_empty_counterexample (lu : Nat → (Nat → Nat → ℝ) → Plu ℝ) :
    let a : Held ℝ := ⟨fun _ => 0, View.fresh [0, 0] 8⟩
    (a.nd.matrix 0 0).det = 1 ∧ slogdet Real.log lu true a = some (1, none) ∧ 1 * expLog none ≠ (a.nd.matrix 0 0).det := by
  intro a
  have h : (a.nd.matrix 0 0).det = 1 := by simp
  refine ⟨h, ?_, by rw [h]; simp [expLog]⟩
  unfold slogdet
  rw [squareSize_eq (n := 0) rfl]
  rfl

/-! ### inv -/

/-- C67: `inv` of an invertible matrix is its two-sided inverse, with the same shape. -/
theorem C67_inv_partial [CommRing K] (inverse : Nat → (Nat → Nat → K) → Nat → Nat → K) (f64 : Bool) (a : Held K) (n : Nat)
    (ha : IsMat f64 a n n) (hinv : ∀ M, gridMatrix n n M = a.nd.matrix n n → IsInverse n M (inverse n M))
    (hu : IsUnit (a.nd.matrix n n).det) :
    ∃ r X, Rumpy.inv inverse f64 a = some r ∧ r.Is X ∧ X.shape = [n, n] ∧
      a.nd.matrix n n * X.matrix n n = 1 ∧ X.matrix n n * a.nd.matrix n n = 1 := by
  have hm := faerMat_matrix ha.wf ha.shape ha.item
  have key := hinv _ hm
  unfold IsInverse at key
  rw [hm] at key
  refine ⟨if n = 0 then ⟨[0, 0], []⟩ else faerToRumpy n n (inverse n (faerMat f64 a n n)),
    ofGrid n n (inverse n (faerMat f64 a n n)), ?_, ?_, rfl, key hu, ?_⟩
  · unfold Rumpy.inv
    rw [squareSize_eq ha.shape]
    show (if n = 0 then _ else _) = _
    split <;> rfl
  · split
    · rename_i h0; subst h0
      exact empty_is _ _ rfl (by simp [size])
    · exact faerToRumpy_is n n _
  · rw [ofGrid_matrix]
    exact mul_eq_one_comm.1 (key hu)

/-- C67: `inv` accepts exactly the square arrays of rank 2. -/
theorem C67_inv_accepts [CommRing K] (inverse : Nat → (Nat → Nat → K) → Nat → Nat → K) (f64 : Bool) (a : Held K) :
    (Rumpy.inv inverse f64 a).isSome ↔ ∃ n, a.view.shape = [n, n] := by
  rw [← squareSize_isSome]
  unfold Rumpy.inv
  cases squareSize a.view with
  | none => simp
  | some n =>
    show (if n = 0 then _ else _ : Option (Arr K)).isSome = true ↔ _
    by_cases h0 : n = 0 <;> simp [h0]

/-- Against C67: a singular matrix has no inverse, but `inv` does not refuse it. -/
theorem C67_inv_singular_counterexample (inverse : Nat → (Nat → Nat → ℚ) → Nat → Nat → ℚ) :
    let a : Held ℚ := ⟨fun _ => 0, View.fresh [1, 1] 8⟩
    (Rumpy.inv inverse true a).isSome ∧ ¬∃ X : Matrix (Fin 1) (Fin 1) ℚ, a.nd.matrix 1 1 * X = 1 := by
  intro a
  refine ⟨rfl, ?_⟩
  rintro ⟨X, h⟩
  have h0 : a.nd.matrix 1 1 = 0 := by funext i j; rfl
  rw [h0, Matrix.zero_mul] at h
  have := congrFun (congrFun h 0) 0
  simp at this

/-! ### Factorisations -/

/-- C67: the arrays from `qr` multiply to the input; `Q` has orthonormal columns, `R` is upper triangular. -/
theorem C67_qr [CommRing K] (thinQr : Nat → Nat → (Nat → Nat → K) → (Nat → Nat → K) × (Nat → Nat → K)) (f64 : Bool)
    (a : Held K) (m n : Nat) (ha : IsMat f64 a m n)
    (hqr : ∀ M, gridMatrix m n M = a.nd.matrix m n → IsThinQr m n M (thinQr m n M).1 (thinQr m n M).2) :
    ∃ q r Q R, Rumpy.qr thinQr f64 a = some (q, r) ∧ q.Is Q ∧ r.Is R ∧ Q.shape = [m, min m n] ∧ R.shape = [min m n, n] ∧
      Q.matrix m (min m n) * R.matrix (min m n) n = a.nd.matrix m n ∧
      (Q.matrix m (min m n)).transpose * Q.matrix m (min m n) = 1 ∧
      ∀ i j, i < min m n → j < i → R.get [i, j] = 0 := by
  have hm := faerMat_matrix ha.wf ha.shape ha.item
  obtain ⟨h1, h2, h3⟩ := hqr _ hm
  rw [hm] at h1
  refine ⟨_, _, _, _, ?_, faerToRumpy_is m (min m n) (thinQr m n (faerMat f64 a m n)).1,
    faerToRumpy_is (min m n) n (thinQr m n (faerMat f64 a m n)).2, rfl, rfl, h1.symm, h2, h3⟩
  unfold Rumpy.qr
  rw [matSize_eq ha.shape]
  rfl

/-- C67: `qr` and `svd` accept exactly the arrays of rank 2. -/
theorem C67_factor_accepts [CommRing K] (thinQr : Nat → Nat → (Nat → Nat → K) → (Nat → Nat → K) × (Nat → Nat → K))
    (thinSvd : Nat → Nat → (Nat → Nat → K) → Svd K) (f64 : Bool) (a : Held K) :
    ((Rumpy.qr thinQr f64 a).isSome ↔ a.view.shape.length = 2) ∧ ((Rumpy.svd thinSvd f64 a).isSome ↔ a.view.shape.length = 2) := by
  rw [← matSize_isSome]
  unfold Rumpy.qr Rumpy.svd
  cases matSize a.view <;> simp

/-- C67: the arrays from `svd` are `U`, the singular values and the transpose of `V`: `U diag(s) Vt` is the
input, `U` has orthonormal columns and `Vt` orthonormal rows, and `s` is non-negative and descending. -/
theorem C67_svd [CommRing K] [LE K] (thinSvd : Nat → Nat → (Nat → Nat → K) → Svd K) (f64 : Bool)
    (a : Held K) (m n : Nat) (ha : IsMat f64 a m n)
    (hsvd : ∀ M, gridMatrix m n M = a.nd.matrix m n → IsSvd m n M (thinSvd m n M)) :
    ∃ u s vt U S Vt, Rumpy.svd thinSvd f64 a = some (u, s, vt) ∧ u.Is U ∧ s.Is S ∧ vt.Is Vt ∧
      U.shape = [m, min m n] ∧ S.shape = [min m n] ∧ Vt.shape = [min m n, n] ∧
      U.matrix m (min m n) * Matrix.diagonal (S.vector (min m n)) * Vt.matrix (min m n) n = a.nd.matrix m n ∧
      (U.matrix m (min m n)).transpose * U.matrix m (min m n) = 1 ∧
      Vt.matrix (min m n) n * (Vt.matrix (min m n) n).transpose = 1 ∧
      (∀ i < min m n, 0 ≤ S.get [i]) ∧ ∀ i j, i < j → j < min m n → S.get [j] ≤ S.get [i] := by
  have hm := faerMat_matrix ha.wf ha.shape ha.item
  have h := hsvd _ hm
  set d := thinSvd m n (faerMat f64 a m n) with hd
  have heq := h.eq
  rw [hm] at heq
  refine ⟨_, _, _, _, _, _, ?_, faerToRumpy_is m (min m n) d.u, faerColToRumpy_is (min m n) (fun i => d.s.getD i 0),
    faerToRumpy_is (min m n) n (fun i j => d.v j i), rfl, rfl, rfl, heq.symm, h.left, ?_, ?_, ?_⟩
  · unfold Rumpy.svd
    rw [matSize_eq ha.shape]
    show some _ = _
    dsimp only
    rw [← hd, h.count]
  · have := h.right
    exact this
  · intro i hi
    have hl : i < d.s.length := by rw [h.count]; exact hi
    show 0 ≤ d.s.getD i 0
    rw [List.getD_eq_getElem _ _ hl]
    exact h.nonneg _ (List.getElem_mem hl)
  · intro i j hij hj
    have hl : j < d.s.length := by rw [h.count]; exact hj
    show d.s.getD j 0 ≤ d.s.getD i 0
    rw [List.getD_eq_getElem _ _ hl, List.getD_eq_getElem _ _ (hij.trans hl)]
    exact List.pairwise_iff_getElem.1 h.sorted i j _ _ hij

/-- C67: `eigh` gives the eigenvalues of the symmetric matrix with the input's lower triangle in ascending
order, and an orthogonal matrix whose columns are eigenvectors.  `eigvalsh` gives the same values. -/
theorem C67_eigh [CommRing K] [PartialOrder K] (selfadjoint : Nat → (Nat → Nat → K) → (Nat → K) × (Nat → Nat → K)) (f64 : Bool)
    (a : Held K) (n : Nat) (ha : IsMat f64 a n n)
    (hd : ∀ M, gridMatrix n n M = a.nd.matrix n n → IsEigh n M (selfadjoint n M).1 (selfadjoint n M).2) :
    ∃ w v W V, Rumpy.eigh selfadjoint f64 a = some (w, v) ∧ Rumpy.eigvalsh selfadjoint f64 a = some w ∧ w.Is W ∧ v.Is V ∧
      W.shape = [n] ∧ V.shape = [n, n] ∧
      lowerSym (a.nd.matrix n n) * V.matrix n n = V.matrix n n * Matrix.diagonal (W.vector n) ∧
      (V.matrix n n).transpose * V.matrix n n = 1 ∧ (∀ i j, i ≤ j → j < n → W.get [i] ≤ W.get [j]) := by
  have hm := faerMat_matrix ha.wf ha.shape ha.item
  have h := hd _ hm
  set d := selfadjoint n (faerMat f64 a n n) with hdd
  have heq := h.eq
  rw [hm] at heq
  refine ⟨if n = 0 then ⟨[0], []⟩ else faerColToRumpy n d.1, if n = 0 then ⟨[0, 0], []⟩ else faerToRumpy n n d.2,
    ofVec n d.1, ofGrid n n d.2, ?_, ?_, ?_, ?_, rfl, rfl, heq, h.orth, h.sorted⟩
  · unfold Rumpy.eigh
    rw [squareSize_eq ha.shape]
    show (if n = 0 then _ else _) = _
    split <;> rfl
  · unfold Rumpy.eigvalsh
    rw [squareSize_eq ha.shape]
    show (if n = 0 then _ else _) = _
    split <;> rfl
  · split
    · rename_i h0; subst h0
      exact empty_is _ _ rfl (by simp [size])
    · exact faerColToRumpy_is n _
  · split
    · rename_i h0; subst h0
      exact empty_is _ _ rfl (by simp [size])
    · exact faerToRumpy_is n n _

theorem lowerSym_of_symm {n : Nat} {A : Matrix (Fin n) (Fin n) K} (h : A.transpose = A) : lowerSym A = A := by
  funext i j
  unfold lowerSym
  split
  · rfl
  · exact congrFun (congrFun h i) j

/-- C67: `cholesky` of a symmetric matrix gives a lower triangular `L` with positive diagonal and `L Lᵀ` equal to
the input, and fails exactly when there is none, that is, when the matrix is not positive definite. -/
theorem C67_cholesky [CommRing K] [PartialOrder K] (factor : Nat → (Nat → Nat → K) → Option (Nat → Nat → K)) (f64 : Bool)
    (a : Held K) (n : Nat) (hn : n ≠ 0) (ha : IsMat f64 a n n) (hsym : (a.nd.matrix n n).transpose = a.nd.matrix n n)
    (hd : ∀ M, gridMatrix n n M = a.nd.matrix n n →
      (∀ L, factor n M = some L → IsCholesky n M L) ∧ ((factor n M).isSome ↔ ∃ L, IsCholesky n M L)) :
    (∀ r, Rumpy.cholesky factor f64 a = some r → ∃ L, r.Is L ∧ L.shape = [n, n] ∧
      L.matrix n n * (L.matrix n n).transpose = a.nd.matrix n n ∧ (∀ i j, i < j → j < n → L.get [i, j] = 0) ∧
      ∀ i < n, 0 < L.get [i, i]) ∧
    ((Rumpy.cholesky factor f64 a).isSome ↔ ∃ L : Matrix (Fin n) (Fin n) K,
      L * L.transpose = a.nd.matrix n n ∧ (∀ i j, i < j → L i j = 0) ∧ ∀ i, 0 < L i i) := by
  have hm := faerMat_matrix ha.wf ha.shape ha.item
  obtain ⟨h1, h2⟩ := hd _ hm
  have hc : Rumpy.cholesky factor f64 a = (factor n (faerMat f64 a n n)).map fun l => faerToRumpy n n l := by
    unfold Rumpy.cholesky
    rw [squareSize_eq ha.shape]
    show (if n = 0 then _ else _) = _
    rw [if_neg hn]
    cases factor n (faerMat f64 a n n) <;> rfl
  rw [hc]
  constructor
  · intro r hr
    obtain ⟨l, hl, rfl⟩ := Option.map_eq_some_iff.1 hr
    have hl := h1 l hl
    refine ⟨_, faerToRumpy_is n n l, rfl, ?_, hl.lower, hl.pos⟩
    rw [ofGrid_matrix, hl.eq, hm, lowerSym_of_symm hsym]
  · rw [Option.isSome_map, h2]
    constructor
    · rintro ⟨l, hl⟩
      refine ⟨gridMatrix n n l, ?_, fun i j hij => hl.lower i j hij j.2, fun i => hl.pos i i.2⟩
      rw [hl.eq, hm, lowerSym_of_symm hsym]
    · rintro ⟨L, e1, e2, e3⟩
      have hL : gridMatrix n n (fun i j => if h : i < n ∧ j < n then L ⟨i, h.1⟩ ⟨j, h.2⟩ else 0) = L := by
        funext i j
        show (if h : (i : Nat) < n ∧ (j : Nat) < n then L ⟨i, h.1⟩ ⟨j, h.2⟩ else 0) = _
        rw [dif_pos ⟨i.2, j.2⟩]
      refine ⟨fun i j => if h : i < n ∧ j < n then L ⟨i, h.1⟩ ⟨j, h.2⟩ else 0, ?_, ?_, ?_⟩
      · intro i j hij hj
        rw [dif_pos ⟨hij.trans hj, hj⟩]
        exact e2 _ _ hij
      · intro i hi
        rw [dif_pos ⟨hi, hi⟩]
        exact e3 _
      · rw [hL, e1, hm, lowerSym_of_symm hsym]

/-- C67: `eig` gives complex eigenvalues and, as columns, the eigenvectors for them; `eigvals` gives whatever
values the library gives. -/
theorem C67_eig {C : Type} [CommRing K] [CommRing C] (ι : K →+* C) (decomp : Nat → (Nat → Nat → K) → (Nat → C) × (Nat → Nat → C))
    (f64 : Bool) (a : Held K) (n : Nat) (ha : IsMat f64 a n n)
    (hd : ∀ M, gridMatrix n n M = a.nd.matrix n n → IsEig ι n M (decomp n M).1 (decomp n M).2) :
    ∃ w v W V, Rumpy.eig decomp f64 a = some (w, v) ∧ Rumpy.eigvals (fun n M => (decomp n M).1) f64 a = some w ∧
      w.Is W ∧ v.Is V ∧ W.shape = [n] ∧ V.shape = [n, n] ∧
      (a.nd.matrix n n).map ι * V.matrix n n = V.matrix n n * Matrix.diagonal (W.vector n) := by
  have hm := faerMat_matrix ha.wf ha.shape ha.item
  have heq := hd _ hm
  set d := decomp n (faerMat f64 a n n) with hdd
  unfold IsEig at heq
  rw [hm] at heq
  refine ⟨if n = 0 then ⟨[0], []⟩ else faerColToRumpy n d.1, if n = 0 then ⟨[0, 0], []⟩ else faerToRumpy n n d.2,
    ofVec n d.1, ofGrid n n d.2, ?_, ?_, ?_, ?_, rfl, rfl, heq⟩
  · unfold Rumpy.eig
    rw [squareSize_eq ha.shape]
    show (if n = 0 then _ else _) = _
    split <;> rfl
  · unfold Rumpy.eigvals
    rw [squareSize_eq ha.shape]
    show (if n = 0 then _ else _) = _
    split <;> rfl
  · split
    · rename_i h0; subst h0
      exact empty_is _ _ rfl (by simp [size])
    · exact faerColToRumpy_is n _
  · split
    · rename_i h0; subst h0
      exact empty_is _ _ rfl (by simp [size])
    · exact faerToRumpy_is n n _

/-- C67: the functions of square matrices refuse every other shape. -/
theorem C67_square_only [CommRing K] (selfadjoint : Nat → (Nat → Nat → K) → (Nat → K) × (Nat → Nat → K))
    (factor : Nat → (Nat → Nat → K) → Option (Nat → Nat → K)) (f64 : Bool) (a : Held K) (h : ¬∃ n, a.view.shape = [n, n]) :
    Rumpy.eigh selfadjoint f64 a = none ∧ Rumpy.eigvalsh selfadjoint f64 a = none ∧ Rumpy.cholesky factor f64 a = none ∧
      Rumpy.eig selfadjoint f64 a = none ∧ Rumpy.eigvals (fun n M => (selfadjoint n M).1) f64 a = none := by
  have : squareSize a.view = none := by
    rw [← squareSize_isSome] at h
    simpa using h
  unfold Rumpy.eigh Rumpy.eigvalsh Rumpy.cholesky Rumpy.eig Rumpy.eigvals
  rw [this]
  exact ⟨rfl, rfl, rfl, rfl, rfl⟩

end Props
