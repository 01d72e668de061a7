import Verif.Lemmas.Norm
import Verif.Props.Solve
import Mathlib.Order.Bounds.Basic
/-!
# C68: norms, condition number, rank, pseudo-inverse, least squares

The singular values and the thin decomposition come from the library, by the contract `IsSvd` for the matrix
at hand.
-/

namespace Props
open Spec Rumpy Matrix

variable {K : Type} [Field K] [LinearOrder K]

/-- The contract of `singular_values`: the values of a singular value decomposition. -/
def GivesSingular (singular : Nat → Nat → (Nat → Nat → K) → List K) (a : Held K) (m n : Nat) : Prop :=
  ∀ M, gridMatrix m n M = a.nd.matrix m n → ∃ d, IsSvd m n M d ∧ d.s = singular m n M

/-! ### Vector norms -/

/-- The sizes of the elements. -/
def magnitudes (a : Held K) : List K := a.nd.toList.map fun x => |x|

theorem vectorNorm_empty (sqrt : K → K) (powf : K → K → K) (a : Held K) (ord : Option (NormOrd K)) (h : size a.view.shape = 0) :
    vectorNorm sqrt powf a ord = some 0 := by
  unfold vectorNorm
  rw [sizeOf_eq, if_pos h]

section
variable [IsStrictOrderedRing K]

/-- C68: the 1-norm is the sum of the magnitudes, in any layout and for any number of elements. -/
theorem C68_vector_one (sqrt : K → K) (powf : K → K → K) (a : Held K) (hw : a.view.WF) (hi : 0 < a.view.item) :
    vectorNorm sqrt powf a (some (.num 1)) = some (magnitudes a).sum := by
  by_cases h0 : size a.view.shape = 0
  · rw [vectorNorm_empty _ _ _ _ h0]
    have : a.nd.toList = [] := List.length_eq_zero_iff.1 (by rw [Nd.length_toList]; exact h0)
    simp [magnitudes, this]
  · unfold vectorNorm
    rw [sizeOf_eq, if_neg h0]
    dsimp only
    rw [if_neg (OfNat.one_ne_ofNat 2), if_pos rfl, sumAll_eq (absArr_wf a), absArr_toList hw hi]
    rfl

/-- C68: the inf-norm of a non-empty array is its greatest magnitude. -/
theorem C68_vector_inf (sqrt : K → K) (powf : K → K → K) (a : Held K) (hw : a.view.WF) (hi : 0 < a.view.item)
    (hne : size a.view.shape ≠ 0) :
    ∃ r, vectorNorm sqrt powf a (some .posInf) = some r ∧ IsGreatest {x | x ∈ magnitudes a} r := by
  have := maxAll_spec (h := absArr a) (absArr_wf a) (by rw [absArr_shape hw]; exact hne)
  rw [absArr_toList hw hi] at this
  refine ⟨maxAll (absArr a), ?_, this.1, fun x hx => this.2 x hx⟩
  unfold vectorNorm
  rw [sizeOf_eq, if_neg hne]

/-- C68: the -inf-norm of a non-empty array is its least magnitude. -/
theorem C68_vector_neg_inf (sqrt : K → K) (powf : K → K → K) (a : Held K) (hw : a.view.WF) (hi : 0 < a.view.item)
    (hne : size a.view.shape ≠ 0) :
    ∃ r, vectorNorm sqrt powf a (some .negInf) = some r ∧ IsLeast {x | x ∈ magnitudes a} r := by
  have := minAll_spec (h := absArr a) (absArr_wf a) (by rw [absArr_shape hw]; exact hne)
  rw [absArr_toList hw hi] at this
  refine ⟨minAll (absArr a), ?_, this.1, fun x hx => this.2 x hx⟩
  unfold vectorNorm
  rw [sizeOf_eq, if_neg hne]

/-- C68: the 0-norm is the number of non-zero elements. -/
theorem C68_vector_zero (sqrt : K → K) (powf : K → K → K) (a : Held K) (hw : a.view.WF) :
    vectorNorm sqrt powf a (some (.num 0)) = some ((a.nd.toList.countP fun x => decide (x ≠ 0) : Nat) : K) := by
  by_cases h0 : size a.view.shape = 0
  · rw [vectorNorm_empty _ _ _ _ h0]
    have : a.nd.toList = [] := List.length_eq_zero_iff.1 (by rw [Nd.length_toList]; exact h0)
    simp [this]
  · unfold vectorNorm
    rw [sizeOf_eq, if_neg h0]
    dsimp only
    rw [if_neg (OfNat.zero_ne_ofNat 2), if_neg zero_ne_one, if_pos rfl, countNonzero_eq hw h0]

omit [IsStrictOrderedRing K] in
/-- C68: any other order gives the `p`-th root of the sum of `p`-th powers of the magnitudes. -/
theorem C68_vector_p (sqrt : K → K) (powf : K → K → K) (a : Held K) (hw : a.view.WF) (hi : 0 < a.view.item)
    (hne : size a.view.shape ≠ 0) (p : K) (h2 : p ≠ 2) (h1 : p ≠ 1) (h0 : p ≠ 0) :
    vectorNorm sqrt powf a (some (.num p)) = some (powf ((magnitudes a).map fun x => powf x p).sum (1 / p)) := by
  unfold vectorNorm
  rw [sizeOf_eq, if_neg hne]
  dsimp only
  rw [if_neg h2, if_neg h1, if_neg h0]
  have : (absArr a).view.addrs.foldl (fun sum o => sum + powf ((absArr a).mem o) p) 0 =
      (((absArr a).view.addrs.map (absArr a).mem).map fun x => powf x p).sum := by
    rw [List.map_map, ← zero_add (List.sum _), ← foldl_add_sum', List.foldl_map]
    rfl
  rw [this, addrs_map (absArr_wf a)]
  show some (powf (((absArr a).nd.toList).map _).sum _) = _
  rw [absArr_toList hw hi]
  rfl

omit [IsStrictOrderedRing K] in
/-- C68 (partial): the 2-norm of fewer than eight elements, contiguous or one-dimensional, is the root of the
sum of squares.  Missing: eight or more elements and strided n-d arrays, which are wrong (C17). -/
theorem C68_vector_two_partial (sqrt : K → K) (powf : K → K → K) (a : Held K) (hw : a.view.WF)
    (hne : size a.view.shape ≠ 0) (hn : size a.view.shape < 8) (hl : a.view.cFlag = true ∨ a.view.shape.length ≤ 1)
    (ord : Option (NormOrd K)) (ho : ord = none ∨ ord = some (.num 2)) :
    vectorNorm sqrt powf a ord = some (sqrt (a.nd.toList.map fun x => x * x).sum) := by
  have e := C17_sum_of_squares_partial a.mem a.view hw hn hl
  unfold vectorNorm
  rw [sizeOf_eq, if_neg hne]
  rcases ho with rfl | rfl
  · dsimp only; rw [e]; rfl
  · dsimp only; rw [if_pos rfl, e]; rfl

end

/-- C68 counterexample: NumPy refuses the inf-norm of an empty array; here it is 0. -/
theorem C68_empty_counterexample (sqrt : ℚ → ℚ) (powf : ℚ → ℚ → ℚ) :
    vectorNorm sqrt powf (⟨fun _ => 1, View.fresh [0] 8⟩ : Held ℚ) (some .posInf) = some 0 := vectorNorm_empty _ _ _ _ rfl

/-- C68 counterexample: an order that is not a number silently gives the 2-norm of a 1-D array, where NumPy
refuses it. -/
theorem C68_unknown_ord_counterexample (sqrt : ℚ → ℚ) (powf : ℚ → ℚ → ℚ) (parse : String → Option (NormOrd ℚ))
    (singular : Nat → Nat → (Nat → Nat → ℚ) → List ℚ) (hp : parse "nuc" = none) :
    normOf sqrt powf parse singular true (⟨fun k => [3, 4].getD (k / 8).toNat 0, View.fresh [2] 8⟩ : Held ℚ) (some "nuc") = some (sqrt 25) := by
  show vectorNorm sqrt powf _ (normOrd1 parse (some "nuc")) = _
  have : normOrd1 parse (some "nuc") = none := by
    unfold normOrd1
    dsimp only
    rw [if_neg (by decide), if_neg (by decide), if_neg (by decide), if_neg (by decide), hp]
  rw [this, C68_vector_two_partial sqrt powf _ (View.WF.fresh _ _) (by decide) (by decide) (.inl rfl) none (.inl rfl)]
  congr 2
  decide +kernel

example (sqrt : ℚ → ℚ) (powf : ℚ → ℚ → ℚ) : vectorNorm sqrt powf (⟨fun k => [3, -4, 0].getD (2 - k / 8).toNat 0, ⟨16, [3], [-8], 8, false, false⟩⟩ : Held ℚ)
    (some (.num 1)) = some 7 ∧
    vectorNorm sqrt powf (⟨fun k => [3, -4, 0].getD (2 - k / 8).toNat 0, ⟨16, [3], [-8], 8, false, false⟩⟩ : Held ℚ) (some (.num 0)) = some 2 := by
  have hw : View.WF ⟨16, [3], [-8], 8, false, false⟩ := ⟨rfl, by simp, by simp⟩
  rw [C68_vector_one _ _ _ hw (by decide), C68_vector_zero _ _ _ hw]
  constructor <;> congr 1 <;> decide +kernel

/-! ### The order of `norm` -/

/-- C68: for a 1-D array the names mean the vector norms and anything else is read as a number; for a 2-D
array the order names a matrix norm; other arrays always get the root of the sum of squares. -/
theorem C68_norm_dispatch (sqrt : K → K) (powf : K → K → K) (parse : String → Option (NormOrd K))
    (singular : Nat → Nat → (Nat → Nat → K) → List K) (f64 : Bool) (a : Held K) :
    (a.view.shape.length = 1 →
      normOf sqrt powf parse singular f64 a none = vectorNorm sqrt powf a none ∧
      normOf sqrt powf parse singular f64 a (some "1") = vectorNorm sqrt powf a (some (.num 1)) ∧
      normOf sqrt powf parse singular f64 a (some "2") = vectorNorm sqrt powf a (some (.num 2)) ∧
      normOf sqrt powf parse singular f64 a (some "inf") = vectorNorm sqrt powf a (some .posInf) ∧
      normOf sqrt powf parse singular f64 a (some "-inf") = vectorNorm sqrt powf a (some .negInf) ∧
      ∀ s p, s ∉ ["fro", "2", "1", "inf", "-inf"] → parse s = some (.num p) →
        normOf sqrt powf parse singular f64 a (some s) = vectorNorm sqrt powf a (some (.num p))) ∧
    (a.view.shape.length = 2 → ∀ ord, normOf sqrt powf parse singular f64 a ord = matrixNorm sqrt singular f64 a ord) := by
  refine ⟨fun h => ?_, fun h ord => by simp only [normOf, h]⟩
  have e : ∀ ord, normOf sqrt powf parse singular f64 a ord = vectorNorm sqrt powf a (normOrd1 parse ord) := fun ord => by
    simp only [normOf, h]
  simp only [e]
  refine ⟨rfl, rfl, rfl, rfl, rfl, fun s p hs hp => ?_⟩
  simp only [List.mem_cons, List.not_mem_nil, or_false, not_or] at hs
  unfold normOrd1
  dsimp only
  rw [if_neg (by rintro (h | h); exacts [hs.1 h, hs.2.1 h]), if_neg hs.2.2.1, if_neg hs.2.2.2.1, if_neg hs.2.2.2.2, hp]

/-! ### Matrix norms -/

/-- The sums of magnitudes of the columns. -/
def columnSums {m n : Nat} (A : Matrix (Fin m) (Fin n) K) : Set K := Set.range fun j => ∑ i, |A i j|

/-- The sums of magnitudes of the rows. -/
def rowSums {m n : Nat} (A : Matrix (Fin m) (Fin n) K) : Set K := Set.range fun i => ∑ j, |A i j|

theorem sums_toList {a : Held K} {m n : Nat} (hw : a.view.WF) (hs : a.view.shape = [m, n]) (hi : 0 < a.view.item) :
    {x | x ∈ (sumAxis (absArr a) 0).nd.toList} = columnSums (a.nd.matrix m n) ∧
    {x | x ∈ (sumAxis (absArr a) 1).nd.toList} = rowSums (a.nd.matrix m n) := by
  have hsh : (absArr a).view.shape = [m, n] := (absArr_shape hw).trans hs
  have hnd : (absArr a).nd.shape = [m, n] := (absArr_shape hw).trans hs
  have hget : ∀ i < m, ∀ j < n, (absArr a).nd.get [i, j] = |a.nd.get [i, j]| := fun i h1 j h2 =>
    (absArr_same hw hi).2 [i, j] (by rw [hnd]; exact inShape_pair h1 h2)
  have h0 := Nd.Same.toList (sumAxis_same (absArr_wf a) (show 0 < (absArr a).view.item from hi) (axis := 0) (by rw [hsh]; simp) (by rw [hsh]; simp))
  have h1 := Nd.Same.toList (sumAxis_same (absArr_wf a) (show 0 < (absArr a).view.item from hi) (axis := 1) (by rw [hsh]; simp) (by rw [hsh]; simp))
  have fold : ∀ (k : Nat) (f : Nat → K), ((List.range k).map f).foldl (fun x y => x + y) 0 = ∑ i : Fin k, f i := fun k f => by
    rw [foldl_add_sum', zero_add, sum_map_range]
  constructor
  · rw [h0]
    unfold columnSums Nd.toList axisReduce
    simp only [hnd]
    rw [show ([m, n].eraseIdx 0) = [n] from rfl, indices_singleton, List.map_map]
    ext x
    simp only [Set.mem_setOf_eq, List.mem_map, List.mem_range, Set.mem_range, Function.comp]
    constructor
    · rintro ⟨j, hj, rfl⟩
      refine ⟨⟨j, hj⟩, ?_⟩
      refine Eq.symm ((fold m _).trans (Finset.sum_congr rfl fun i _ => ?_))
      exact hget i i.2 j hj
    · rintro ⟨j, rfl⟩
      refine ⟨j, j.2, (fold m _).trans (Finset.sum_congr rfl fun i _ => ?_)⟩
      exact hget i i.2 j j.2
  · rw [h1]
    unfold rowSums Nd.toList axisReduce
    simp only [hnd]
    rw [show ([m, n].eraseIdx 1) = [m] from rfl, indices_singleton, List.map_map]
    ext x
    simp only [Set.mem_setOf_eq, List.mem_map, List.mem_range, Set.mem_range, Function.comp]
    constructor
    · rintro ⟨i, hi', rfl⟩
      refine ⟨⟨i, hi'⟩, ?_⟩
      refine Eq.symm ((fold n _).trans (Finset.sum_congr rfl fun j _ => ?_))
      exact hget i hi' j j.2
    · rintro ⟨i, rfl⟩
      refine ⟨i, i.2, (fold n _).trans (Finset.sum_congr rfl fun j _ => ?_)⟩
      exact hget i i.2 j j.2

theorem matrixNorm_eq (sqrt : K → K) (singular : Nat → Nat → (Nat → Nat → K) → List K) (f64 : Bool) {a : Held K} {m n : Nat}
    (hs : a.view.shape = [m, n]) (hm : 0 < m) (hn : 0 < n) (ord : String) :
    matrixNorm sqrt singular f64 a (some ord) =
      (if ord = "fro" then some (sqrt (sumOfSquares a.mem a.view))
      else if ord = "nuc" then some ((singular m n (faerMat f64 a m n)).foldl (fun x y => x + y) 0)
      else if ord = "1" then some (maxAll (sumAxis (absArr a) 0))
      else if ord = "2" then some (if singular m n (faerMat f64 a m n) = [] then 0 else (singular m n (faerMat f64 a m n)).getD 0 0)
      else if ord = "inf" then some (maxAll (sumAxis (absArr a) 1))
      else if ord = "-1" then some (minAll (sumAxis (absArr a) 0))
      else if ord = "-2" then some (if singular m n (faerMat f64 a m n) = [] then 0 else
        (singular m n (faerMat f64 a m n)).getD ((singular m n (faerMat f64 a m n)).length - 1) 0)
      else if ord = "-inf" then some (minAll (sumAxis (absArr a) 1))
      else none) := by
  unfold matrixNorm
  rw [matSize_eq hs, Option.bind_eq_bind, Option.bind_some]
  dsimp only
  rw [if_neg (by omega)]
  rfl

theorem sumAxis_shape {a : Held K} {m n : Nat} (hw : a.view.WF) (hs : a.view.shape = [m, n]) :
    (sumAxis (absArr a) 0).view.shape = [n] ∧ (sumAxis (absArr a) 1).view.shape = [m] := by
  have hsh : (absArr a).view.shape = [m, n] := (absArr_shape hw).trans hs
  have h : ∀ axis, (sumAxis (absArr a) axis).view.shape = (reduceAxis (fun x y : K => x + y) 0 (absArr a).mem (absArr a).view axis 0).shape :=
    fun _ => rfl
  rw [h, h, reduceAxis_shape, reduceAxis_shape, hsh]
  exact ⟨rfl, rfl⟩

/-- C68: the matrix 1-norm and -1-norm are the greatest and the least sum of magnitudes of a column. -/
theorem C68_matrix_one (sqrt : K → K) (singular : Nat → Nat → (Nat → Nat → K) → List K) (f64 : Bool) (a : Held K) (m n : Nat)
    (hw : a.view.WF) (hs : a.view.shape = [m, n]) (hi : 0 < a.view.item) (hm : 0 < m) (hn : 0 < n) :
    (∃ r, matrixNorm sqrt singular f64 a (some "1") = some r ∧ IsGreatest (columnSums (a.nd.matrix m n)) r) ∧
    (∃ r, matrixNorm sqrt singular f64 a (some "-1") = some r ∧ IsLeast (columnSums (a.nd.matrix m n)) r) := by
  have hne : size (sumAxis (absArr a) 0).view.shape ≠ 0 := by rw [(sumAxis_shape hw hs).1]; simp [size]; omega
  rw [← (sums_toList hw hs hi).1]
  constructor
  · have := maxAll_spec (sumAxis_wf (absArr a) 0) hne
    refine ⟨_, ?_, this.1, fun x hx => this.2 x hx⟩
    rw [matrixNorm_eq sqrt singular f64 hs hm hn]
    rfl
  · have := minAll_spec (sumAxis_wf (absArr a) 0) hne
    refine ⟨_, ?_, this.1, fun x hx => this.2 x hx⟩
    rw [matrixNorm_eq sqrt singular f64 hs hm hn]
    rfl

/-- C68: the matrix inf-norm and -inf-norm are the greatest and the least sum of magnitudes of a row. -/
theorem C68_matrix_inf (sqrt : K → K) (singular : Nat → Nat → (Nat → Nat → K) → List K) (f64 : Bool) (a : Held K) (m n : Nat)
    (hw : a.view.WF) (hs : a.view.shape = [m, n]) (hi : 0 < a.view.item) (hm : 0 < m) (hn : 0 < n) :
    (∃ r, matrixNorm sqrt singular f64 a (some "inf") = some r ∧ IsGreatest (rowSums (a.nd.matrix m n)) r) ∧
    (∃ r, matrixNorm sqrt singular f64 a (some "-inf") = some r ∧ IsLeast (rowSums (a.nd.matrix m n)) r) := by
  have hne : size (sumAxis (absArr a) 1).view.shape ≠ 0 := by rw [(sumAxis_shape hw hs).2]; simp [size]; omega
  rw [← (sums_toList hw hs hi).2]
  constructor
  · have := maxAll_spec (sumAxis_wf (absArr a) 1) hne
    refine ⟨_, ?_, this.1, fun x hx => this.2 x hx⟩
    rw [matrixNorm_eq sqrt singular f64 hs hm hn]
    rfl
  · have := minAll_spec (sumAxis_wf (absArr a) 1) hne
    refine ⟨_, ?_, this.1, fun x hx => this.2 x hx⟩
    rw [matrixNorm_eq sqrt singular f64 hs hm hn]
    rfl

/-- C68 (partial): the Frobenius norm of fewer than eight elements, contiguous, is the root of the sum of
squares.  Missing: as for the 2-norm of vectors. -/
theorem C68_matrix_fro_partial (sqrt : K → K) (singular : Nat → Nat → (Nat → Nat → K) → List K) (f64 : Bool) (a : Held K) (m n : Nat)
    (hw : a.view.WF) (hs : a.view.shape = [m, n]) (hm : 0 < m) (hn : 0 < n) (hsz : m * n < 8) (hc : a.view.cFlag = true)
    (ord : Option String) (ho : ord = none ∨ ord = some "fro") :
    matrixNorm sqrt singular f64 a ord = some (sqrt (∑ i, ∑ j, a.nd.matrix m n i j ^ 2)) := by
  have e := C17_sum_of_squares_partial a.mem a.view hw (by rw [hs]; simpa [size] using hsz) (.inl hc)
  have h1 : matrixNorm sqrt singular f64 a ord = matrixNorm sqrt singular f64 a (some "fro") := by
    rcases ho with rfl | rfl <;> rfl
  rw [h1, matrixNorm_eq sqrt singular f64 hs hm hn, if_pos rfl, e]
  congr 2
  have hsh : (a.view.denote a.mem).shape = [m, n] := hs
  unfold Nd.toList
  rw [hsh, indices_two, List.map_map, List.map_flatMap]
  simp only [List.map_map]
  rw [List.flatMap_def, List.sum_flatten, List.map_map, sum_map_range]
  refine Finset.sum_congr rfl fun i _ => ?_
  simp only [Function.comp_def]
  rw [sum_map_range]
  refine Finset.sum_congr rfl fun j _ => ?_
  rw [sq]
  rfl

section
variable [IsStrictOrderedRing K]

/-- C68: the matrix 2-norm is the greatest stretch of the matrix; with at least as many rows as columns, the
-2-norm is the least. -/
theorem C68_matrix_two (sqrt : K → K) (singular : Nat → Nat → (Nat → Nat → K) → List K) (f64 : Bool) (a : Held K) (m n : Nat)
    (ha : IsMat f64 a m n) (hm : 0 < m) (hn : 0 < n) (hsv : GivesSingular singular a m n) :
    (∃ r, matrixNorm sqrt singular f64 a (some "2") = some r ∧ IsLargestGain (a.nd.matrix m n) r) ∧
    (n ≤ m → ∃ r, matrixNorm sqrt singular f64 a (some "-2") = some r ∧ IsSmallestGain (a.nd.matrix m n) r) := by
  have hM := faerMat_matrix ha.wf ha.shape ha.item
  obtain ⟨d, hd, he⟩ := hsv _ hM
  have hne : singular m n (faerMat f64 a m n) ≠ [] := by
    rw [← he]; intro h0
    have := hd.count
    rw [h0] at this
    simp at this; omega
  constructor
  · refine ⟨d.s.getD 0 0, ?_, ?_⟩
    · rw [matrixNorm_eq sqrt singular f64 ha.shape hm hn]
      show some (if _ then _ else _) = _
      rw [if_neg hne, he]
    · rw [← hM]; exact svd_largest hd (by omega)
  · intro hnm
    refine ⟨d.s.getD (d.s.length - 1) 0, ?_, ?_⟩
    · rw [matrixNorm_eq sqrt singular f64 ha.shape hm hn]
      show some (if _ then _ else _) = _
      rw [if_neg hne, he]
    · rw [← hM]; exact svd_smallest hd hnm hn

omit [IsStrictOrderedRing K] in
/-- C68: the nuclear norm is the sum of the singular values. -/
theorem C68_matrix_nuc (sqrt : K → K) (singular : Nat → Nat → (Nat → Nat → K) → List K) (f64 : Bool) (a : Held K) (m n : Nat)
    (ha : IsMat f64 a m n) (hm : 0 < m) (hn : 0 < n) (hsv : GivesSingular singular a m n) :
    ∃ M d, gridMatrix m n M = a.nd.matrix m n ∧ IsSvd m n M d ∧
      matrixNorm sqrt singular f64 a (some "nuc") = some (∑ l, d.sv (min m n) l) := by
  have hM := faerMat_matrix ha.wf ha.shape ha.item
  obtain ⟨d, hd, he⟩ := hsv _ hM
  refine ⟨faerMat f64 a m n, d, hM, hd, ?_⟩
  rw [matrixNorm_eq sqrt singular f64 ha.shape hm hn, if_neg (by decide), if_pos rfl, ← he, foldl_add_sum', zero_add]
  congr 1
  show _ = ∑ l : Fin (min m n), d.s.getD l 0
  rw [← sum_map_range (fun l => d.s.getD l 0), ← hd.count]
  congr 1
  apply List.ext_getElem
  · simp
  · intro i h1 h2
    rw [List.getElem_map, List.getElem_range, List.getD_eq_getElem _ _ h1]

omit [IsStrictOrderedRing K] in
/-- C68: a matrix norm is refused for arrays that are not 2-D and, with elements, for unknown orders. -/
theorem C68_matrix_accepts (sqrt : K → K) (singular : Nat → Nat → (Nat → Nat → K) → List K) (f64 : Bool) (a : Held K) (ord : String) :
    (matrixNorm sqrt singular f64 a (some ord)).isSome ↔ ∃ m n, a.view.shape = [m, n] ∧
      (m = 0 ∨ n = 0 ∨ ord ∈ ["fro", "nuc", "1", "2", "inf", "-1", "-2", "-inf"]) := by
  constructor
  · intro h
    have h2 : (matSize a.view).isSome := by
      cases hm : matSize a.view with
      | none => unfold matrixNorm at h; rw [hm] at h; simp at h
      | some x => rfl
    rw [matSize_isSome] at h2
    match hs : a.view.shape, h2 with
    | [m, n], _ =>
      refine ⟨m, n, rfl, ?_⟩
      by_contra hc
      simp only [not_or, List.mem_cons, List.not_mem_nil, or_false] at hc
      obtain ⟨h0, h0', h1, h2, h3, h4, h5, h6, h7, h8⟩ := hc
      rw [matrixNorm_eq sqrt singular f64 hs (by omega) (by omega), if_neg h1, if_neg h2, if_neg h3, if_neg h4, if_neg h5,
        if_neg h6, if_neg h7, if_neg h8] at h
      simp at h
  · rintro ⟨m, n, hs, h⟩
    by_cases h0 : m = 0 ∨ n = 0
    · unfold matrixNorm
      rw [matSize_eq hs, Option.bind_eq_bind, Option.bind_some]
      dsimp only
      rw [if_pos h0]; rfl
    · rw [matrixNorm_eq sqrt singular f64 hs (by omega) (by omega)]
      have : ord ∈ ["fro", "nuc", "1", "2", "inf", "-1", "-2", "-inf"] := by
        rcases h with h | h | h
        · exact absurd (.inl h) h0
        · exact absurd (.inr h) h0
        · exact h
      simp only [List.mem_cons, List.not_mem_nil, or_false] at this
      rcases this with rfl | rfl | rfl | rfl | rfl | rfl | rfl | rfl <;> rfl

/-! ### Condition number and rank -/

/-- C68: with at least as many rows as columns, the condition number is the ratio of greatest and least
stretch, and infinite exactly when some non-zero vector is sent to zero. -/
theorem C68_cond (singular : Nat → Nat → (Nat → Nat → K) → List K) (f64 : Bool) (a : Held K) (m n : Nat)
    (ha : IsMat f64 a m n) (hnm : n ≤ m) (hn : 0 < n) (hsv : GivesSingular singular a m n) (p : Option String)
    (hp : p = none ∨ p = some "2") :
    ∃ hi lo, IsLargestGain (a.nd.matrix m n) hi ∧ IsSmallestGain (a.nd.matrix m n) lo ∧
      (lo ≠ 0 → Rumpy.cond singular f64 a p = some ((hi / lo : K) : WithTop K)) ∧
      (Rumpy.cond singular f64 a p = some ⊤ ↔ ∃ x, x ≠ 0 ∧ a.nd.matrix m n *ᵥ x = 0) := by
  have hM := faerMat_matrix ha.wf ha.shape ha.item
  obtain ⟨d, hd, he⟩ := hsv _ hM
  have hne : singular m n (faerMat f64 a m n) ≠ [] := by
    rw [← he]; intro h0
    have := hd.count
    rw [h0] at this
    simp at this; omega
  have hlo := svd_smallest hd hnm hn
  have hhi := svd_largest hd (by omega)
  rw [hM] at hlo hhi
  have hcond : Rumpy.cond singular f64 a p = if d.s.getD (d.s.length - 1) 0 = 0 then some ⊤ else
      some ((d.s.getD 0 0 / d.s.getD (d.s.length - 1) 0 : K) : WithTop K) := by
    unfold Rumpy.cond
    rw [matSize_eq ha.shape, Option.bind_eq_bind, Option.bind_some]
    have hp' : p.getD "2" = "2" := by rcases hp with rfl | rfl <;> rfl
    dsimp only
    rw [hp', if_pos (.inl rfl), if_neg hne, ← he]
    congr 1
  refine ⟨_, _, hhi, hlo, fun h => by rw [hcond, if_neg h], ?_⟩
  rw [hcond]
  constructor
  · intro h
    have h0 : d.s.getD (d.s.length - 1) 0 = 0 := by
      by_contra hc
      rw [if_neg hc] at h
      exact WithTop.coe_ne_top (Option.some.inj h)
    obtain ⟨x, hx1, hx2⟩ := hlo.reached
    refine ⟨x, ?_, dot_self_eq_zero (by rw [h0] at hx2; simpa [lengthSq] using hx2)⟩
    rintro rfl
    simp [lengthSq] at hx1
  · rintro ⟨x, hx, hx0⟩
    rw [if_pos]
    by_contra hc
    have := hlo.bound x
    rw [hx0] at this
    have h1 : 0 < lengthSq x := lt_of_le_of_ne (dot_self_nonneg x) fun h => hx (dot_self_eq_zero h.symm)
    have h2 : 0 < d.s.getD (d.s.length - 1) 0 ^ 2 := by positivity
    have h3 := mul_pos h2 h1
    simp only [lengthSq, dotProduct_zero] at this h3
    exact absurd this (not_le.2 h3)

omit [IsStrictOrderedRing K] in
/-- C68: only the orders 2 and -2 are implemented; NumPy has the others as well. -/
theorem C68_cond_accepts (singular : Nat → Nat → (Nat → Nat → K) → List K) (f64 : Bool) (a : Held K) (p : Option String) :
    (Rumpy.cond singular f64 a p).isSome ↔ a.view.shape.length = 2 ∧ (p = none ∨ p = some "2" ∨ p = some "-2") := by
  rw [← matSize_isSome]
  unfold Rumpy.cond
  cases hm : matSize a.view with
  | none => simp
  | some x =>
    rw [Option.bind_eq_bind, Option.bind_some]
    dsimp only
    by_cases h : p.getD "2" = "2" ∨ p.getD "2" = "-2"
    · rw [if_pos h]
      have h' : p = none ∨ p = some "2" ∨ p = some "-2" := by
        cases p with
        | none => exact .inl rfl
        | some s =>
          rcases h with h | h
          · right; left; exact congrArg some h
          · right; right; exact congrArg some h
      split
      · simp [h']
      · split
        · simp [h']
        · split <;> simp [h']
    · rw [if_neg h]
      simp only [Option.isSome_none, Bool.false_eq_true, Option.isSome_some, true_and, false_iff]
      rintro (rfl | rfl | rfl) <;> simp at h

/-- C68: `matrix_rank` is the rank of the matrix whenever the tolerance separates the zero singular values
from the others. -/
theorem C68_matrix_rank (eps : K) (singular : Nat → Nat → (Nat → Nat → K) → List K) (f64 : Bool) (a : Held K) (m n : Nat)
    (ha : IsMat f64 a m n) (hsv : GivesSingular singular a m n) (tol : Option K)
    (hsep : ∀ M, gridMatrix m n M = a.nd.matrix m n →
      Separates (tol.getD ((max m n : Nat) * eps * (singular m n M).getD 0 0)) (singular m n M)) :
    matrixRank eps singular f64 a tol = some (a.nd.matrix m n).rank := by
  have hM := faerMat_matrix ha.wf ha.shape ha.item
  obtain ⟨d, hd, he⟩ := hsv _ hM
  have hs := hsep _ hM
  rw [← he] at hs
  have hr := svd_rank hd
  rw [hM] at hr
  unfold matrixRank
  rw [matSize_eq ha.shape, Option.bind_eq_bind, Option.bind_some]
  dsimp only
  by_cases h0 : m = 0 ∨ n = 0
  · rw [if_pos h0, hr]
    congr 1
    have : min m n = 0 := by omega
    symm
    rw [Fintype.card_eq_zero_iff]
    exact ⟨fun x => by have := x.1.2; omega⟩
  · have hne : singular m n (faerMat f64 a m n) ≠ [] := by
      rw [← he]; intro h
      have := hd.count
      rw [h] at this
      simp at this; omega
    rw [if_neg h0, if_neg hne, ← he, countAbove_eq, hr]
    congr 1
    have e := card_positions d.s (fun x => x ≠ 0) hd.count
    refine Eq.trans ?_ e.symm
    apply List.countP_congr
    intro x hx
    have := hs.iff hd.nonneg hx
    rw [abs_of_nonneg (hd.nonneg x hx)] at this
    simpa using this

/-! ### Pseudo-inverse -/

/-- C68: `pinv` gives the array whose matrix satisfies the four conditions of Penrose, whenever the cutoff
separates the zero singular values from the others. -/
theorem C68_pinv (eps : K) (thinSvd : Nat → Nat → (Nat → Nat → K) → Svd K) (f64 : Bool) (a : Held K) (m n : Nat)
    (ha : IsMat f64 a m n) (rcond : Option K)
    (hsvd : ∀ M, gridMatrix m n M = a.nd.matrix m n → IsSvd m n M (thinSvd m n M) ∧
      Separates (rcond.getD (eps * (max m n : Nat)) * |(thinSvd m n M).s.getD 0 0|) (thinSvd m n M).s) :
    ∃ r X, Rumpy.pinv eps thinSvd f64 a rcond = some r ∧ r.Is X ∧ X.shape = [n, m] ∧ IsPinv (a.nd.matrix m n) (X.matrix n m) := by
  have hM := faerMat_matrix ha.wf ha.shape ha.item
  obtain ⟨hd, hs⟩ := hsvd _ hM
  have hp := svdPinv_is hd
  rw [hM] at hp
  unfold Rumpy.pinv
  rw [matSize_eq ha.shape, Option.bind_eq_bind, Option.bind_some]
  dsimp only
  by_cases h0 : m = 0 ∨ n = 0
  · rw [if_pos h0]
    refine ⟨⟨[n, m], []⟩, ofGrid n m fun _ _ => 0, rfl, empty_is _ _ rfl ?_, rfl, ?_⟩
    · simp [size]; tauto
    · rcases h0 with h | h <;> subst h <;>
        exact ⟨by ext i j; first | exact i.elim0 | exact j.elim0, by ext i j; first | exact i.elim0 | exact j.elim0,
          by ext i j; first | exact i.elim0 | simp [Matrix.mul_apply], by ext i j; first | exact i.elim0 | simp [Matrix.mul_apply]⟩
  · rw [if_neg h0]
    refine ⟨_, _, rfl, faerToRumpy_is n m _, rfl, ?_⟩
    rw [ofGrid_matrix, pinvEntry_eq hd hs]
    exact hp

/-! ### Least squares -/

/-- The cutoff of `lstsq` below which a singular value counts as zero. -/
def lstsqCutoff (eps : K) (m n : Nat) (rcond : Option K) (s : List K) : K :=
  (match rcond with
    | some r => if r < 0 then eps * (max m n : Nat) else r
    | none => eps * (max m n : Nat)) * |s.getD 0 0|

/-- The right-hand side as a matrix: a 1-D array is one column. -/
def rhsColumn (b : Nd K) (oneD : Bool) (m : Nat) (col : Nat) : Fin m → K := fun i => b.get (if oneD then [(i : Nat)] else [(i : Nat), col])

/-- A solution or right-hand side of `cols` columns. -/
def isColumns (shape : List Nat) (oneD : Bool) (k cols : Nat) : Prop := if oneD then shape = [k] ∧ cols = 1 else shape = [k, cols]

theorem lstsqCols_eq {m cols : Nat} {oneD : Bool} {v : View} (h : isColumns v.shape oneD m cols) : lstsqCols m v = some (oneD, cols) := by
  unfold lstsqCols
  cases oneD
  · have h : v.shape = [m, cols] := h
    rw [h]; simp
  · have h : v.shape = [m] ∧ cols = 1 := h
    rw [h.1, h.2]; simp

omit [IsStrictOrderedRing K] in
theorem cutoff_eq (eps : K) (m n : Nat) (rcond : Option K) (s : List K) (h : IsStrictOrderedRing K) :
    (if rcond.getD (-1) < 0 then eps * (max m n : Nat) else rcond.getD (-1)) * |s.getD 0 0| = lstsqCutoff eps m n rcond s := by
  unfold lstsqCutoff
  cases rcond with
  | none =>
    show (if (-1 : K) < 0 then _ else _) * _ = _
    rw [if_pos (by simp)]
  | some r => rfl

omit [IsStrictOrderedRing K] in
theorem lstsqNd_column (oneD : Bool) (n cols : Nat) (entry : Nat → Nat → K) (h1 : oneD = true → cols = 1) {col : Nat} (hc : col < cols) :
    rhsColumn (lstsqNd oneD n cols entry) oneD n col = fun i : Fin n => entry col i := by
  cases oneD
  · rfl
  · have := h1 rfl
    have : col = 0 := by omega
    subst this
    rfl

/-- C68: every column of the solution from `lstsq` is the shortest vector that brings `A x` closest to that
column of the right-hand side; the rank is that of the matrix; and for a matrix of full column rank with more
rows than columns the residuals are the squared distances. -/
theorem C68_lstsq (eps : K) (thinSvd : Nat → Nat → (Nat → Nat → K) → Svd K) (f64 : Bool) (a b : Held K) (m n : Nat)
    (ha : IsMat f64 a m n) (hm : 0 < m) (hn : 0 < n) (oneD : Bool) (cols : Nat) (hb : isColumns b.view.shape oneD m cols) (rcond : Option K)
    (hsvd : ∀ M, gridMatrix m n M = a.nd.matrix m n → IsSvd m n M (thinSvd m n M) ∧
      Separates (lstsqCutoff eps m n rcond (thinSvd m n M).s) (thinSvd m n M).s) :
    ∃ r X S, Rumpy.lstsq eps thinSvd f64 a b rcond = some r ∧ r.x.Is X ∧ isColumns X.shape oneD n cols ∧
      (∀ col < cols, IsLeastSquares (a.nd.matrix m n) (rhsColumn b.nd oneD m col) (rhsColumn X oneD n col)) ∧
      r.rank = (a.nd.matrix m n).rank ∧
      r.s.Is S ∧ S.shape = [min m n] ∧ (∀ l (h : l < min m n), S.get [l] = (thinSvd m n (faerMat f64 a m n)).s.getD l 0) ∧
      (n < m ∧ r.rank = n → ∃ R, r.residuals.Is R ∧ R.shape = [cols] ∧ ∀ col < cols,
        R.get [col] = lengthSq (a.nd.matrix m n *ᵥ rhsColumn X oneD n col - rhsColumn b.nd oneD m col)) ∧
      (¬ (n < m ∧ r.rank = n) → r.residuals = ⟨[0], []⟩) := by
  have hM := faerMat_matrix ha.wf ha.shape ha.item
  obtain ⟨hd, hs⟩ := hsvd _ hM
  set d := thinSvd m n (faerMat f64 a m n) with hdd
  have hp := svdPinv_is hd
  have hr := svd_rank hd
  rw [hM] at hp hr
  have h1 : oneD = true → cols = 1 := by
    intro h; subst h; exact hb.2
  set cutoff := lstsqCutoff eps m n rcond d.s with hcut
  set entry : Nat → Nat → K := fun col i => lstsqEntry d cutoff m (fun r => rhsAt b oneD r col) i with hentry
  have hrank : countAbove cutoff (d.s.map fun x => |x|) = (a.nd.matrix m n).rank := by
    rw [countAbove_eq, hr, List.countP_map]
    refine Eq.trans ?_ (card_positions d.s (fun x => x ≠ 0) hd.count).symm
    apply List.countP_congr
    intro x hx
    have := hs.iff hd.nonneg hx
    simpa using this
  have hcol : ∀ col < cols, rhsColumn (lstsqNd oneD n cols entry) oneD n col = svdPinv m n d *ᵥ rhsColumn b.nd oneD m col := by
    intro col hc
    rw [lstsqNd_column oneD n cols entry h1 hc]
    funext i
    exact lstsqEntry_eq hd hs (fun r => rhsAt b oneD r col) i
  have hx := lstsqX_is oneD n cols entry h1
  have hxs : isColumns (lstsqNd oneD n cols entry).shape oneD n cols := by
    cases oneD
    · exact rfl
    · exact ⟨rfl, h1 rfl⟩
  have hcall : Rumpy.lstsq eps thinSvd f64 a b rcond = some ⟨lstsqX oneD n cols entry,
      (if m > n ∧ countAbove cutoff (d.s.map fun x => |x|) = n then
        faerColToRumpy cols (residualOf a b oneD m n cols (lstsqX oneD n cols entry)) else ⟨[0], []⟩),
      countAbove cutoff (d.s.map fun x => |x|), faerColToRumpy d.s.length fun i => d.s.getD i 0⟩ := by
    unfold Rumpy.lstsq
    rw [matSize_eq ha.shape, Option.bind_eq_bind, Option.bind_some]
    dsimp only
    rw [lstsqCols_eq hb, Option.bind_eq_bind, Option.bind_some]
    dsimp only
    rw [if_neg (by omega), ← hdd, cutoff_eq eps m n rcond d.s inferInstance]
  have hxget : ∀ j < n, ∀ col < cols, (lstsqX oneD n cols entry).data.getD (if oneD then j else j * cols + col) 0 = entry col j := by
    intro j hj col hc
    rw [hx.2]
    cases oneD
    · have := toList_getElem? (nd := lstsqNd false n cols entry) (idx := [j, col]) (inShape_pair hj hc)
      rw [show (lstsqNd false n cols entry).shape = [n, cols] from rfl, rank_two] at this
      simp only [Bool.false_eq_true, if_false]
      rw [List.getD_eq_getElem?_getD, this]
      rfl
    · have hc0 : col = 0 := by have := h1 rfl; omega
      subst hc0
      have := toList_getElem? (nd := lstsqNd true n cols entry) (idx := [j]) (show InShape [n] [j] by simp [InShape, hj])
      rw [show rank (lstsqNd true n cols entry).shape [j] = j by simp [lstsqNd, ofVec, Spec.rank, size]] at this
      simp only [if_true]
      rw [List.getD_eq_getElem?_getD, this]
      rfl
  refine ⟨_, lstsqNd oneD n cols entry, ofVec d.s.length fun i => d.s.getD i 0, hcall, hx, hxs, ?_, hrank, faerColToRumpy_is _ _, ?_, fun l _ => rfl, ?_, ?_⟩
  · intro col hc
    rw [hcol col hc]
    exact pinv_leastSquares hp _
  · show [d.s.length] = _
    rw [hd.count]
  · rintro ⟨hlt, hrk⟩
    dsimp only at hrk ⊢
    rw [if_pos ⟨hlt, hrk⟩]
    refine ⟨ofVec cols _, faerColToRumpy_is _ _, rfl, fun col hc => ?_⟩
    show residualOf a b oneD m n cols (lstsqX oneD n cols entry) col = _
    unfold residualOf
    rw [foldl_add_fin (fun i => ((List.range n).foldl (fun acc j =>
      acc + a.mem (a.view.addr [i, j]) * (lstsqX oneD n cols entry).data.getD (if oneD then j else j * cols + col) 0) 0 - rhsAt b oneD i col) ^ 2)]
    rw [lengthSq, dotProduct]
    refine Finset.sum_congr rfl fun i _ => ?_
    rw [sq, foldl_add_fin (fun j => a.mem (a.view.addr [(i : Nat), j]) * (lstsqX oneD n cols entry).data.getD (if oneD then j else j * cols + col) 0)]
    have : (∑ j : Fin n, a.mem (a.view.addr [(i : Nat), (j : Nat)]) * (lstsqX oneD n cols entry).data.getD (if oneD then (j : Nat) else j * cols + col) 0) =
        (a.nd.matrix m n *ᵥ rhsColumn (lstsqNd oneD n cols entry) oneD n col) i := by
      rw [lstsqNd_column oneD n cols entry h1 hc]
      exact Finset.sum_congr rfl fun j _ => by rw [hxget j j.2 col hc]; rfl
    rw [this]
    rfl
  · intro hn'
    dsimp only at hn' ⊢
    rw [if_neg hn']

/-- C68: `lstsq` of a matrix with no rows or no columns gives zeros, which are the least-squares solution. -/
theorem C68_lstsq_empty (eps : K) (thinSvd : Nat → Nat → (Nat → Nat → K) → Svd K) (f64 : Bool) (a b : Held K) (m n : Nat)
    (hs : a.view.shape = [m, n]) (h0 : m = 0 ∨ n = 0) (oneD : Bool) (cols : Nat) (hb : isColumns b.view.shape oneD m cols) (rcond : Option K) :
    ∃ r X, Rumpy.lstsq eps thinSvd f64 a b rcond = some r ∧ r.x.Is X ∧ isColumns X.shape oneD n cols ∧
      (∀ col < cols, IsLeastSquares (a.nd.matrix m n) (rhsColumn b.nd oneD m col) (rhsColumn X oneD n col)) ∧
      r.rank = (a.nd.matrix m n).rank := by
  refine ⟨⟨⟨if oneD then [n] else [n, cols], List.replicate (n * cols) 0⟩, ⟨[0], []⟩, 0, ⟨[0], []⟩⟩, lstsqNd oneD n cols fun _ _ => 0, ?_, ?_, ?_, ?_, ?_⟩
  · unfold Rumpy.lstsq
    rw [matSize_eq hs, Option.bind_eq_bind, Option.bind_some]
    dsimp only
    rw [lstsqCols_eq hb, Option.bind_eq_bind, Option.bind_some]
    dsimp only
    rw [if_pos h0]
  · cases oneD
    · refine ⟨rfl, ?_⟩
      show List.replicate _ _ = (indices [n, cols]).map fun _ => (0 : K)
      rw [List.map_const', length_indices]; simp [size]
    · have h1 : cols = 1 := hb.2
      refine ⟨rfl, ?_⟩
      show List.replicate _ _ = (indices [n]).map fun _ => (0 : K)
      rw [List.map_const', length_indices, h1]; simp [size]
  · cases oneD
    · exact rfl
    · exact ⟨rfl, hb.2⟩
  · intro col hc
    have hz : rhsColumn (lstsqNd oneD n cols fun _ _ => (0 : K)) oneD n col = 0 := by
      cases oneD <;> rfl
    rw [hz]
    refine ⟨fun y => ?_, fun y _ => ?_⟩
    · rcases h0 with h | h
      · subst h; simp [lengthSq]
      · subst h; rw [Subsingleton.elim y 0]
    · simp only [lengthSq, dotProduct_zero]
      exact dot_self_nonneg y
  · have := (a.nd.matrix m n).rank_le_height
    have := (a.nd.matrix m n).rank_le_width
    show 0 = _
    omega

omit [IsStrictOrderedRing K] in
/-- C68: `lstsq` accepts exactly a 2-D matrix with a 1-D or 2-D right-hand side of as many rows. -/
theorem C68_lstsq_accepts (eps : K) (thinSvd : Nat → Nat → (Nat → Nat → K) → Svd K) (f64 : Bool) (a b : Held K) (rcond : Option K) :
    (Rumpy.lstsq eps thinSvd f64 a b rcond).isSome ↔
      ∃ m n, a.view.shape = [m, n] ∧ (b.view.shape = [m] ∨ ∃ c, b.view.shape = [m, c]) := by
  constructor
  · intro h
    have h2 : (matSize a.view).isSome := by
      cases hm : matSize a.view with
      | none => unfold Rumpy.lstsq at h; rw [hm] at h; simp at h
      | some x => rfl
    rw [matSize_isSome] at h2
    match hs : a.view.shape, h2 with
    | [m, n], _ =>
      refine ⟨m, n, rfl, ?_⟩
      have h3 : (lstsqCols m b.view).isSome := by
        cases hm : lstsqCols m b.view with
        | none =>
          unfold Rumpy.lstsq at h
          rw [matSize_eq hs, Option.bind_eq_bind, Option.bind_some] at h
          dsimp only at h
          rw [hm] at h
          simp at h
        | some x => rfl
      unfold lstsqCols at h3
      split at h3
      · rename_i k hk
        by_cases e : k = m
        · left; rw [hk, e]
        · rw [if_pos e] at h3; simp at h3
      · rename_i k c hk
        by_cases e : k = m
        · right; exact ⟨c, by rw [hk, e]⟩
        · rw [if_pos e] at h3; simp at h3
      · simp at h3
  · rintro ⟨m, n, hs, hb⟩
    obtain ⟨x, hx⟩ : ∃ x, lstsqCols m b.view = some x := by
      rcases hb with hb | ⟨c, hb⟩
      · exact ⟨(true, 1), by unfold lstsqCols; rw [hb]; simp⟩
      · exact ⟨(false, c), by unfold lstsqCols; rw [hb]; simp⟩
    unfold Rumpy.lstsq
    rw [matSize_eq hs, Option.bind_eq_bind, Option.bind_some]
    dsimp only
    rw [hx, Option.bind_eq_bind, Option.bind_some]
    by_cases h0 : m = 0 ∨ n = 0
    · rw [if_pos h0]; rfl
    · rw [if_neg h0]; rfl

end

/-! ### The hypotheses are met -/

/-- A matrix of rank one, with rational decomposition: singular values 5 and 0. -/
def exFlat : Held ℚ := ⟨fun k => [3, 0, 4, 0].getD (k / 8).toNat 0, View.fresh [2, 2] 8⟩

def exFlatResult : Svd ℚ := ⟨fun i j => [3 / 5, -4 / 5, 4 / 5, 3 / 5].getD (i * 2 + j) 0, [5, 0], fun i j => [1, 0, 0, 1].getD (i * 2 + j) 0⟩

theorem exFlat_is : IsMat true exFlat 2 2 ∧ ∀ M, gridMatrix 2 2 M = exFlat.nd.matrix 2 2 → IsSvd 2 2 M exFlatResult := by
  refine ⟨⟨View.WF.fresh _ _, rfl, fun _ => rfl⟩, fun M hM => ⟨rfl, by decide +kernel, by decide +kernel, by decide +kernel, by decide +kernel, ?_⟩⟩
  rw [hM]
  decide +kernel

/-- One column, two rows. -/
def exTall : Held ℚ := ⟨fun k => [3, 4].getD (k / 8).toNat 0, View.fresh [2, 1] 8⟩

def exTallResult : Svd ℚ := ⟨fun i _ => [3 / 5, 4 / 5].getD i 0, [5], fun _ _ => 1⟩

theorem exTall_is : IsMat true exTall 2 1 ∧ ∀ M, gridMatrix 2 1 M = exTall.nd.matrix 2 1 → IsSvd 2 1 M exTallResult := by
  refine ⟨⟨View.WF.fresh _ _, rfl, fun _ => rfl⟩, fun M hM => ⟨rfl, by decide +kernel, by decide +kernel, by decide +kernel, by decide +kernel, ?_⟩⟩
  rw [hM]
  decide +kernel

/-- C68 counterexample: with order -2 a singular matrix has condition number 0 in NumPy; here it is infinite. -/
theorem C68_cond_minus_two_counterexample : Rumpy.cond (fun _ _ _ => exFlatResult.s) true exFlat (some "-2") = some ⊤ ∧
    GivesSingular (fun _ _ _ => exFlatResult.s) exFlat 2 2 :=
  ⟨rfl, fun M hM => ⟨exFlatResult, exFlat_is.2 M hM, rfl⟩⟩

example : ∃ r, matrixNorm id (fun _ _ _ => exSvdResult.s) true exSvd (some "2") = some r ∧ IsLargestGain (exSvd.nd.matrix 2 2) r :=
  (C68_matrix_two id _ true exSvd 2 2 exSvd_is.1 (by omega) (by omega) fun M hM => ⟨exSvdResult, exSvd_is.2 M hM, rfl⟩).1

example : matrixNorm id (fun _ _ _ => exSvdResult.s) true exSvd (some "2") = some 10 ∧
    matrixNorm id (fun _ _ _ => exSvdResult.s) true exSvd (some "-2") = some 5 ∧
    matrixNorm id (fun _ _ _ => exSvdResult.s) true exSvd (some "nuc") = some 15 ∧
    matrixNorm id (fun _ _ _ => exSvdResult.s) true exSvd (some "1") = some 14 ∧
    matrixNorm id (fun _ _ _ => exSvdResult.s) true exSvd (some "-inf") = some 10 ∧
    matrixNorm id (fun _ _ _ => exSvdResult.s) true exSvd none = some 125 ∧
    matrixNorm id (fun _ _ _ => exSvdResult.s) true exSvd (some "3") = none := by
  decide +kernel

example : Rumpy.cond (fun _ _ _ => exSvdResult.s) true exSvd none = some ((2 : ℚ) : WithTop ℚ) ∧
    Rumpy.cond (fun _ _ _ => exFlatResult.s) true exFlat none = some ⊤ := by
  decide +kernel

example : (exFlat.nd.matrix 2 2).rank = 1 := by
  have := C68_matrix_rank (1 / 1000) (fun _ _ _ => exFlatResult.s) true exFlat 2 2 exFlat_is.1 (fun M hM => ⟨exFlatResult, exFlat_is.2 M hM, rfl⟩) none
    fun M _ => ⟨by decide +kernel, by decide +kernel⟩
  have e : matrixRank (1 / 1000) (fun _ _ _ => exFlatResult.s) true exFlat none = some 1 := by decide +kernel
  rw [e] at this
  exact (Option.some.inj this).symm

example : ∃ r X, Rumpy.pinv (1 / 1000) (fun _ _ _ => exFlatResult) true exFlat none = some r ∧ r.Is X ∧ X.shape = [2, 2] ∧
    IsPinv (exFlat.nd.matrix 2 2) (X.matrix 2 2) :=
  C68_pinv (1 / 1000) (fun _ _ _ => exFlatResult) true exFlat 2 2 exFlat_is.1 none
    fun M hM => ⟨exFlat_is.2 M hM, by decide +kernel, by decide +kernel⟩

example : (Rumpy.pinv (1 / 1000) (fun _ _ _ => exFlatResult) true exFlat none).map (fun r => r.data) = some [3 / 25, 4 / 25, 0, 0] := by decide +kernel

example : ∃ r, Rumpy.lstsq (1 / 1000) (fun _ _ _ => exTallResult) true exTall (⟨fun k => [5, 10].getD (k / 8).toNat 0, View.fresh [2] 8⟩ : Held ℚ) none = some r ∧
    r.rank = (exTall.nd.matrix 2 1).rank := by
  obtain ⟨r, X, S, h1, -, -, -, h2, -⟩ := C68_lstsq (1 / 1000) (fun _ _ _ => exTallResult) true exTall
    (⟨fun k => [5, 10].getD (k / 8).toNat 0, View.fresh [2] 8⟩ : Held ℚ) 2 1 exTall_is.1 (by omega) (by omega) true 1 ⟨rfl, rfl⟩ none
    fun M hM => ⟨exTall_is.2 M hM, by decide +kernel, by decide +kernel⟩
  exact ⟨r, h1, h2⟩

example : (Rumpy.lstsq (1 / 1000) (fun _ _ _ => exTallResult) true exTall (⟨fun k => [5, 10].getD (k / 8).toNat 0, View.fresh [2] 8⟩ : Held ℚ) none).map
    (fun r => (r.x.data, r.residuals.data, r.rank, r.s.data)) = some ([11 / 5], [4], 1, [5]) := by decide +kernel

end Props
