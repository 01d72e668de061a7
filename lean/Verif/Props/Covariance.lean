import Verif.Lemmas.Covariance
import Verif.Lemmas.Distribution
import Verif.Props.Distribution
import Mathlib.Algebra.BigOperators.Field
import Verif.Props.Moments
/-! # C77: covariance, correlation and weighted means -/

namespace Props
open Spec Rumpy

/-! ### cov -/

/-- The covariance matrix of the rows of a matrix in any layout. -/
theorem C77_cov {K : Type} [Field K] [CharZero K] (typed : Bool) (out : DType) (hout : out ∈ productDTypes) (ddof : Nat) (h : Held K)
    (hw : h.view.WF) (hi : 0 < h.view.item) (v n : Nat) (hs : h.view.shape = [v, n]) (hn : ddof < n) :
    ∃ r, Rumpy.cov typed out ddof h = some r ∧ r.Is ⟨[v, v], fun idx =>
      some (covN n ddof (fun k => h.nd.get [idx.getD 0 0, k]) (fun k => h.nd.get [idx.getD 1 0, k]))⟩ := by
  obtain ⟨r, h1, h2⟩ := covMatrix_is typed hout hw hi hs hn
  refine ⟨r, ?_, h2⟩
  unfold Rumpy.cov
  rw [if_neg (by rw [hs]; simp), h1]

example : Rumpy.cov false .f64 1 (ratHeld [2, 3] [1, 2, 3, 6, 4, 5]) = some ⟨[2, 2], [some 1, some (-1/2), some (-1/2), some 1]⟩ := by
  decide +kernel

/-- With too few observations all entries are NaN. -/
theorem C77_cov_nan {K : Type} [Field K] (typed : Bool) (out : DType) (ddof : Nat) (h : Held K) (v n : Nat)
    (hs : h.view.shape = [v, n]) (hn : n ≤ ddof) :
    ∃ r, Rumpy.cov typed out ddof h = some r ∧ r.Is ⟨[v, v], fun _ => none⟩ := by
  refine ⟨⟨[v, v], List.replicate (v * v) none⟩, ?_, rfl, ?_⟩
  · unfold Rumpy.cov covMatrix
    rw [if_neg (by rw [hs]; simp), if_neg (by rw [hs]; simp)]
    dsimp only
    rw [hs]
    exact if_pos hn
  · show _ = List.map (fun _ => none) (indices [v, v])
    rw [List.map_const', length_indices]
    simp [size]

/-- The variance of a vector. The result has one axis, where NumPy's has none. -/
theorem C77_cov_vector_partial {K : Type} [Field K] [CharZero K] (typed : Bool) (out : DType) (ddof : Nat) (h : Held K)
    (hw : h.view.WF) (n : Nat) (hs : h.view.shape = [n]) (hn : ddof < n) :
    ∃ r, Rumpy.cov typed out ddof h = some r ∧
      r.Is ⟨[1], fun _ => some (covN n ddof (fun k => h.nd.get [k]) (fun k => h.nd.get [k]))⟩ := by
  have hlist : h.nd.toList = (List.range n).map fun k => h.nd.get [k] := by
    unfold Nd.toList
    rw [show h.nd.shape = [n] from hs, indices_singleton, List.map_map]
    rfl
  have hsz : Rumpy.sizeOf h.view.shape = n := by rw [sizeOf_eq, hs]; simp [size]
  refine ⟨_, by unfold Rumpy.cov; rw [if_pos (by rw [hs]; rfl)], ?_⟩
  have e : covVector ddof h = oneOf (some (covN n ddof (fun k => h.nd.get [k]) (fun k => h.nd.get [k]))) := by
    unfold covVector
    dsimp only
    have hne : h.nd.toList ≠ [] := by
      intro he
      have := congrArg List.length he
      rw [nd_length, hsz] at this
      simp at this
      omega
    rw [hsz, if_neg (by omega), C72_mean h hw, if_neg hne, Option.map_some]
    unfold covN
    rw [Nat.cast_sub hn.le]
    refine congrArg (fun s : K => oneOf (some (s / ((n : K) - (ddof : K))))) ?_
    have e1 : h.view.addrs.map h.mem = h.nd.toList := addrs_map hw h.mem
    rw [e1, hlist, meanOf_range, List.map_map, ← sum_range_list]
    rfl
  rw [e]
  exact oneOf_is _

example : Rumpy.cov false .f64 1 (ratHeld [3] [1, 2, 6]) = some ⟨[1], [some 7]⟩ := by decide +kernel

/-- A vector with no more than `ddof` elements has no variance: the result is NaN. -/
theorem C77_cov_vector_nan {K : Type} [Field K] (typed : Bool) (out : DType) (ddof : Nat) (h : Held K)
    (n : Nat) (hs : h.view.shape = [n]) (hn : n ≤ ddof) :
    ∃ r, Rumpy.cov typed out ddof h = some r ∧ r.Is ⟨[1], fun _ => none⟩ := by
  have hsz : Rumpy.sizeOf h.view.shape = n := by rw [sizeOf_eq, hs]; simp [size]
  refine ⟨_, by unfold Rumpy.cov; rw [if_pos (by rw [hs]; rfl)], ?_⟩
  unfold covVector
  dsimp only
  rw [hsz, if_pos hn]
  exact oneOf_is _

example : Rumpy.cov false .f64 1 (ratHeld [1] [5]) = some ⟨[1], [none]⟩ := by decide +kernel

/-- The covariance matrix is symmetric and positive semi-definite. -/
theorem C77_cov_semidefinite {K : Type} [Field K] [LinearOrder K] [IsStrictOrderedRing K] (typed : Bool) (out : DType)
    (hout : out ∈ productDTypes) (ddof : Nat) (h : Held K) (hw : h.view.WF) (hi : 0 < h.view.item) (v n : Nat)
    (hs : h.view.shape = [v, n]) (hn : ddof < n) :
    ∃ (r : Arr (Option K)) (c : Nat → Nat → K), Rumpy.cov typed out ddof h = some r ∧
      r.Is ⟨[v, v], fun idx => some (c (idx.getD 0 0) (idx.getD 1 0))⟩ ∧ (∀ i j, c i j = c j i) ∧
      ∀ a : Nat → K, 0 ≤ ∑ i ∈ Finset.range v, ∑ j ∈ Finset.range v, a i * c i j * a j := by
  obtain ⟨r, h1, h2⟩ := C77_cov typed out hout ddof h hw hi v n hs hn
  refine ⟨r, fun i j => covN n ddof (fun k => h.nd.get [i, k]) (fun k => h.nd.get [j, k]), h1, h2, ?_, ?_⟩
  · intro i j
    dsimp only
    unfold covN
    congr 1
    exact Finset.sum_congr rfl fun k _ => mul_comm _ _
  · intro a
    have hd : (0 : K) < (n : K) - (ddof : K) := sub_pos.2 (by exact_mod_cast hn)
    let y : Nat → Nat → K := fun i k => h.nd.get [i, k] - meanN n fun k => h.nd.get [i, k]
    have e : ∑ i ∈ Finset.range v, ∑ j ∈ Finset.range v,
        a i * covN n ddof (fun k => h.nd.get [i, k]) (fun k => h.nd.get [j, k]) * a j =
        (∑ k ∈ Finset.range n, (∑ i ∈ Finset.range v, a i * y i k) ^ 2) / ((n : K) - (ddof : K)) := by
      have e1 : ∀ k, (∑ i ∈ Finset.range v, a i * y i k) ^ 2 =
          ∑ i ∈ Finset.range v, ∑ j ∈ Finset.range v, a i * y i k * (a j * y j k) := by
        intro k
        rw [pow_two, Finset.sum_mul_sum]
      simp only [e1]
      conv_rhs => rw [Finset.sum_comm, Finset.sum_div]
      refine Finset.sum_congr rfl fun i _ => ?_
      conv_rhs => rw [Finset.sum_comm, Finset.sum_div]
      refine Finset.sum_congr rfl fun j _ => ?_
      unfold covN
      rw [mul_div_assoc', div_mul_eq_mul_div, Finset.mul_sum, Finset.sum_mul]
      congr 1
      exact Finset.sum_congr rfl fun k _ => by show _ = a i * y i k * (a j * y j k); ring
    rw [e]
    exact div_nonneg (Finset.sum_nonneg fun k _ => sq_nonneg _) hd.le

/-! ### corrcoef -/

/-- A variance is zero exactly for constant observations. -/
theorem C77_constant {K : Type} [Field K] [LinearOrder K] [IsStrictOrderedRing K] (n ddof : Nat) (hn : ddof < n) (x : Nat → K) :
    0 ≤ covN n ddof x x ∧ (covN n ddof x x = 0 ↔ ∀ j < n, ∀ k < n, x j = x k) := by
  have hd : (0 : K) < (n : K) - (ddof : K) := sub_pos.2 (by exact_mod_cast hn)
  have hn0 : (n : K) ≠ 0 := by have : n ≠ 0 := by omega
                               exact_mod_cast this
  refine ⟨div_nonneg (Finset.sum_nonneg fun k _ => mul_self_nonneg _) hd.le, ?_⟩
  unfold covN
  rw [div_eq_zero_iff, or_iff_left hd.ne', Finset.sum_eq_zero_iff_of_nonneg fun k _ => mul_self_nonneg _]
  constructor
  · intro h j hj k hk
    have h1 := mul_self_eq_zero.1 (h j (Finset.mem_range.2 hj))
    have h2 := mul_self_eq_zero.1 (h k (Finset.mem_range.2 hk))
    rw [sub_eq_zero] at h1 h2
    rw [h1, h2]
  · intro h k hk
    have hm : meanN n x = x k := by
      unfold meanN
      rw [Finset.sum_congr rfl fun j hj => h j (Finset.mem_range.1 hj) k (Finset.mem_range.1 hk), Finset.sum_const,
        Finset.card_range, nsmul_eq_mul, mul_div_cancel_left₀ _ hn0]
    rw [hm, sub_self, mul_zero]

/-- The correlation matrix of the rows. Where a row is constant, there is NaN, except for one on the diagonal. -/
theorem C77_corrcoef_partial (typed : Bool) (out : DType) (hout : out ∈ productDTypes) (h : Held ℝ)
    (hw : h.view.WF) (hi : 0 < h.view.item) (v n : Nat) (hs : h.view.shape = [v, n]) (hn : 2 ≤ n) :
    ∃ (r : Arr (Option ℝ)) (c : Nat → Nat → Option ℝ), corrcoef typed out realSqrt h = some r ∧
      r.Is ⟨[v, v], fun idx => c (idx.getD 0 0) (idx.getD 1 0)⟩ ∧
      (∀ i < v, ∀ j < v, (∃ a < n, ∃ b < n, h.nd.get [i, a] ≠ h.nd.get [i, b]) → (∃ a < n, ∃ b < n, h.nd.get [j, a] ≠ h.nd.get [j, b]) →
        c i j = some (corrN n (fun k => h.nd.get [i, k]) (fun k => h.nd.get [j, k]))) ∧
      ∀ i < v, ∀ j < v, i ≠ j → (∀ a < n, ∀ b < n, h.nd.get [i, a] = h.nd.get [i, b]) → c i j = none ∧ c j i = none := by
  obtain ⟨m, h1, mis⟩ := C77_cov typed out hout 1 h hw hi v n hs (by omega)
  have hmsh : m.shape = [v, v] := mis.1
  have hmd := mis.denote (item := 8) (by norm_num) none
  obtain ⟨dv, hd1, hd2, hd3⟩ := C50_diagonal_partial (Held.of m 8 none).mem (Held.of m 8 none).view (held_of_wf _ _ _) (n := v) (m := v) hmsh
  have hget : ∀ i < v, ∀ j < v, (Held.of m 8 none).mem ((Held.of m 8 none).view.addr [i, j]) =
      some (covN n 1 (fun k => h.nd.get [i, k]) (fun k => h.nd.get [j, k])) :=
    fun i hi j hj => hmd.2 [i, j] (by show InShape m.shape _; rw [hmsh]; exact inShape_pair hi hj)
  have hdiag : ∀ i < v, (Held.of m 8 none).mem (dv.addr [i]) =
      some (covN n 1 (fun k => h.nd.get [i, k]) (fun k => h.nd.get [i, k])) := by
    intro i hi
    have hsh : dv.shape = [v] := by
      rw [show dv.shape = _ from hd3.1]
      show [min (m.shape.getD 0 0) (m.shape.getD 1 0)] = [v]
      rw [hmsh]
      simp
    have := hd3.2 [i] (by show InShape dv.shape _; rw [hsh]; exact ⟨hi, trivial⟩)
    exact this.trans (hget i hi i hi)
  let c : Nat → Nat → Option ℝ := fun i j => corrEntry realSqrt (fun k => (Held.of m 8 none).mem (dv.addr [k]))
    ((Held.of m 8 none).mem ((Held.of m 8 none).view.addr [i, j])) i j
  have hsq : ∀ i < v, (some (covN n 1 (fun k => h.nd.get [i, k]) (fun k => h.nd.get [i, k]))).bind realSqrt =
      some (Real.sqrt (covN n 1 (fun k => h.nd.get [i, k]) (fun k => h.nd.get [i, k]))) :=
    fun i _ => if_pos (C77_constant n 1 (by omega) _).1
  refine ⟨⟨[v, v], (List.range v).flatMap fun i => (List.range v).map fun j => c i j⟩, c, ?_, ⟨rfl, ?_⟩, ?_, ?_⟩
  · unfold corrcoef
    rw [if_neg (by rw [hs]; simp), h1]
    dsimp only
    rw [hd1]
    dsimp only
    rw [hmsh]
    rfl
  · show _ = (indices [v, v]).map _
    rw [indices_two, List.map_flatMap]
    refine List.flatMap_congr fun i _ => ?_
    rw [List.map_map]
    rfl
  · intro i hi j hj ⟨a, ha, b, hb, hab⟩ ⟨a', ha', b', hb', hab'⟩
    show corrEntry _ _ _ i j = _
    unfold corrEntry
    dsimp only
    rw [hdiag i hi, hdiag j hj, hget i hi j hj, hsq i hi, hsq j hj]
    have hi0 := C77_constant (K := ℝ) n 1 (by omega) (fun k => h.nd.get [i, k])
    have hj0 := C77_constant (K := ℝ) n 1 (by omega) (fun k => h.nd.get [j, k])
    have n1 : ¬ covN n 1 (fun k => h.nd.get [i, k]) (fun k => h.nd.get [i, k]) = 0 := fun e => hab (hi0.2.1 e a ha b hb)
    have n2 : ¬ covN n 1 (fun k => h.nd.get [j, k]) (fun k => h.nd.get [j, k]) = 0 := fun e => hab' (hj0.2.1 e a' ha' b' hb')
    have hne : ¬ (some (Real.sqrt (covN n 1 (fun k => h.nd.get [i, k]) (fun k => h.nd.get [i, k]))) = some 0 ∨
        some (Real.sqrt (covN n 1 (fun k => h.nd.get [j, k]) (fun k => h.nd.get [j, k]))) = some 0) := by
      rintro (e | e)
      · exact n1 ((Real.sqrt_eq_zero hi0.1).1 (Option.some.inj e))
      · exact n2 ((Real.sqrt_eq_zero hj0.1).1 (Option.some.inj e))
    rw [if_neg hne]
    rfl
  · intro i hi j hj hij hconst
    have hz : covN n 1 (fun k => h.nd.get [i, k]) (fun k => h.nd.get [i, k]) = 0 :=
      (C77_constant (K := ℝ) n 1 (by omega) (fun k => h.nd.get [i, k])).2.2 hconst
    constructor
    · show corrEntry _ _ _ i j = none
      unfold corrEntry
      dsimp only
      rw [hdiag i hi, hsq i hi, hz, Real.sqrt_zero, if_pos (.inl rfl), if_neg hij]
    · show corrEntry _ _ _ j i = none
      unfold corrEntry
      dsimp only
      rw [hdiag i hi, hsq i hi, hz, Real.sqrt_zero, if_pos (.inr rfl), if_neg (Ne.symm hij)]

/-- A correlation lies between minus one and one; it is symmetric, one for a variable with itself, and does not change when a
variable is scaled by a positive factor and shifted. -/
theorem C77_correlation (n : Nat) (hn : 2 ≤ n) (x y : Nat → ℝ) (hx : ∃ a < n, ∃ b < n, x a ≠ x b) :
    (-1 ≤ corrN n x y ∧ corrN n x y ≤ 1) ∧ corrN n x y = corrN n y x ∧ corrN n x x = 1 ∧
      ∀ a b : ℝ, 0 < a → corrN n (fun k => a * x k + b) y = corrN n x y := by
  have hd : (0 : ℝ) < (n : ℝ) - ((1 : Nat) : ℝ) := sub_pos.2 (by exact_mod_cast (by omega : 1 < n))
  have hcx := C77_constant (K := ℝ) n 1 (by omega) x
  have hcy := C77_constant (K := ℝ) n 1 (by omega) y
  have hx0 : 0 < covN n 1 x x := by
    refine lt_of_le_of_ne hcx.1 fun e => ?_
    obtain ⟨a, ha, b, hb, hab⟩ := hx
    exact hab (hcx.2.1 e.symm a ha b hb)
  have hsym : ∀ x y : Nat → ℝ, covN n 1 x y = covN n 1 y x := fun x y => by
    unfold covN
    congr 1
    exact Finset.sum_congr rfl fun k _ => mul_comm _ _
  refine ⟨?_, ?_, ?_, ?_⟩
  · have hcs : covN n 1 x y ^ 2 ≤ covN n 1 x x * covN n 1 y y := by
      have := Finset.sum_mul_sq_le_sq_mul_sq (Finset.range n) (fun k => x k - meanN n x) (fun k => y k - meanN n y)
      unfold covN
      rw [div_pow, div_mul_div_comm, ← pow_two ((n : ℝ) - ((1 : Nat) : ℝ))]
      refine div_le_div_of_nonneg_right ?_ (by positivity)
      simpa only [pow_two] using this
    have habs : |covN n 1 x y| ≤ Real.sqrt (covN n 1 x x) * Real.sqrt (covN n 1 y y) := by
      rw [← Real.sqrt_mul hcx.1]
      exact Real.abs_le_sqrt hcs
    rw [← abs_le]
    unfold corrN
    rw [abs_div, abs_of_nonneg (by positivity : (0:ℝ) ≤ Real.sqrt (covN n 1 x x) * Real.sqrt (covN n 1 y y))]
    exact div_le_one_of_le₀ habs (by positivity)
  · unfold corrN
    rw [hsym x y, mul_comm (Real.sqrt _)]
  · unfold corrN
    rw [Real.mul_self_sqrt hcx.1, div_self hx0.ne']
  · intro a b ha
    have hn0 : (n : ℝ) ≠ 0 := by have : n ≠ 0 := by omega
                                 exact_mod_cast this
    have hmean : meanN n (fun k => a * x k + b) = a * meanN n x + b := by
      unfold meanN
      rw [Finset.sum_add_distrib, ← Finset.mul_sum, Finset.sum_const, Finset.card_range, nsmul_eq_mul]
      field_simp
    have e1 : covN n 1 (fun k => a * x k + b) y = a * covN n 1 x y := by
      unfold covN
      rw [mul_div_assoc', Finset.mul_sum, hmean]
      congr 1
      exact Finset.sum_congr rfl fun k _ => by ring
    have e2 : covN n 1 (fun k => a * x k + b) (fun k => a * x k + b) = a ^ 2 * covN n 1 x x := by
      unfold covN
      rw [mul_div_assoc', Finset.mul_sum, hmean]
      congr 1
      exact Finset.sum_congr rfl fun k _ => by ring
    unfold corrN
    rw [e1, e2, Real.sqrt_mul (by positivity), Real.sqrt_sq ha.le, mul_assoc, mul_div_mul_left _ _ ha.ne']

example : corrcoef false .f64 ratSqrt (ratHeld [3, 3] [1, 2, 3, 6, 4, 2, 5, 5, 5]) =
    some ⟨[3, 3], [some 1, some (-1), none, some (-1), some 1, none, none, none, some 1]⟩ := by decide +kernel

/-- A constant row has correlation one with itself, where NumPy gives NaN; arrays with one axis give `[[1]]` whatever they
hold, and `cov` and `corrcoef` panic on arrays without axes and with three. -/
theorem C77_corrcoef_counterexample :
    corrcoef false .f64 ratSqrt (ratHeld [1, 2] [5, 5]) = some ⟨[1, 1], [some 1]⟩ ∧
    corrcoef false .f64 ratSqrt (ratHeld [2] [5, 5]) = some ⟨[1, 1], [some 1]⟩ ∧
    corrcoef false .f64 ratSqrt (ratHeld [] [5]) = none ∧ Rumpy.cov false .f64 1 (ratHeld [2, 2, 2] [1, 2, 3, 4, 5, 6, 7, 8]) = none := by
  decide +kernel

/-! ### average -/

/-- The weighted mean of an array with weights of the same shape, both in any layout. -/
theorem C77_average_partial {K : Type} [Field K] [DecidableEq K] (typed : Bool) (h w : Held K) (hw : h.view.WF) (ww : w.view.WF)
    (hi : 0 < h.view.item) (hs : h.view.shape = w.view.shape) :
    average typed h (some w) = some (weightedMean h.nd.toList w.nd.toList) := by
  obtain ⟨p, hp, pis⟩ := binaryOp_is typed (fun a b : K => a * b) hw ww (out := h.view.shape)
    (by rw [← hs]; exact isBroadcast_self _) 0
  have hpd := held_of_is pis hi 0
  unfold average
  dsimp only
  rw [hp]
  dsimp only
  rw [C16_reduce_all (fun a b : K => a + b) 0 add_assoc add_comm zero_add _ _ (held_of_wf _ _ _),
    C16_reduce_all (fun a b : K => a + b) 0 add_assoc add_comm zero_add _ _ ww, foldl_add_eq_sum, foldl_add_eq_sum]
  have e : ((Held.of p h.view.item 0).view.denote (Held.of p h.view.item 0).mem).toList =
      List.zipWith (fun a b => a * b) h.nd.toList w.nd.toList := by
    rw [show ((Held.of p h.view.item 0).view.denote (Held.of p h.view.item 0).mem).toList = _ from Rumpy.Nd.Same.toList hpd]
    unfold Nd.toList
    rw [show h.nd.shape = h.view.shape from rfl, show w.nd.shape = h.view.shape from hs.symm, List.zipWith_map, List.zipWith_self]
    refine List.map_congr_left fun i hi' => ?_
    have hi' := (mem_indices).1 hi'
    dsimp only
    rw [bcast_self (a := h.nd) (s := h.view.shape) rfl hi', bcast_self (a := w.nd) hs.symm hi']
  rw [e]
  rfl

/-- With weights that are not negative, the weighted mean lies between bounds of the elements. -/
theorem C77_average_bounds {K : Type} [Field K] [LinearOrder K] [IsStrictOrderedRing K] (typed : Bool) (h w : Held K)
    (hw : h.view.WF) (ww : w.view.WF) (hi : 0 < h.view.item) (hs : h.view.shape = w.view.shape) (hpos : ∀ x ∈ w.nd.toList, 0 ≤ x)
    (lo hi' : K) (hlo : ∀ x ∈ h.nd.toList, lo ≤ x ∧ x ≤ hi') (y : K) (hy : average typed h (some w) = some (some y)) :
    lo ≤ y ∧ y ≤ hi' := by
  rw [C77_average_partial typed h w hw ww hi hs] at hy
  have hlen : h.nd.toList.length = w.nd.toList.length := by rw [nd_length, nd_length, hs]
  have hy := Option.some.inj hy
  unfold weightedMean at hy
  split at hy
  · cases hy
  · rename_i hne
    have hy := Option.some.inj hy
    have hsum : 0 < w.nd.toList.sum := lt_of_le_of_ne (List.sum_nonneg hpos) (Ne.symm hne)
    have key : ∀ xs ws : List K, xs.length = ws.length → (∀ x ∈ ws, 0 ≤ x) → (∀ x ∈ xs, lo ≤ x ∧ x ≤ hi') →
        lo * ws.sum ≤ (List.zipWith (· * ·) xs ws).sum ∧ (List.zipWith (· * ·) xs ws).sum ≤ hi' * ws.sum := by
      intro xs
      induction xs with
      | nil =>
        intro ws hl _ _
        cases ws with
        | nil => simp
        | cons => simp at hl
      | cons x xs ih =>
        intro ws hl hp hb
        cases ws with
        | nil => simp at hl
        | cons w ws =>
          obtain ⟨i1, i2⟩ := ih ws (by simpa using hl) (fun y hy => hp y (List.mem_cons_of_mem _ hy)) (fun y hy => hb y (List.mem_cons_of_mem _ hy))
          have hw0 := hp w (by simp)
          obtain ⟨b1, b2⟩ := hb x (by simp)
          simp only [List.zipWith_cons_cons, List.sum_cons]
          constructor <;> nlinarith [mul_le_mul_of_nonneg_right b1 hw0, mul_le_mul_of_nonneg_right b2 hw0]
    obtain ⟨k1, k2⟩ := key _ _ hlen hpos hlo
    rw [← hy]
    exact ⟨(le_div_iff₀ hsum).2 k1, (div_le_iff₀ hsum).2 k2⟩

/-- Along an axis, with weights of the same shape, each element is the weighted mean of its lane. -/
theorem C77_average_axis_partial {K : Type} [Field K] [DecidableEq K] (typed : Bool) (h w : Held K) (hw : h.view.WF) (ww : w.view.WF)
    (hi : 0 < h.view.item) (wi : 0 < w.view.item) (hs : h.view.shape = w.view.shape) (ax : Nat) (hax : ax < h.view.shape.length)
    (h2 : 2 ≤ h.view.shape.length) :
    ∃ r, averageAxis typed h w ax = some r ∧ r.Is ⟨h.view.shape.eraseIdx ax, fun idx =>
      weightedMean ((List.range (h.view.shape.getD ax 0)).map fun k => h.nd.get (idx.insertIdx ax k))
        ((List.range (h.view.shape.getD ax 0)).map fun k => w.nd.get (idx.insertIdx ax k))⟩ := by
  obtain ⟨p, hp, pis⟩ := binaryOp_is typed (fun a b : K => a * b) hw ww (out := h.view.shape)
    (by rw [← hs]; exact isBroadcast_self _) 0
  have hpsh : (Held.of p h.view.item 0).view.shape = h.view.shape := pis.1
  have hpd := held_of_is pis hi 0
  have ok := reduceStep_ok (op := fun a b : K => a + b) (e := 0) add_assoc add_comm zero_add
  obtain ⟨s, hs1, sis⟩ := ok.step (Held.of p h.view.item 0) ax (held_of_wf _ _ _) hi (by rw [hpsh]; exact hax) (by rw [hpsh]; exact h2) trivial
  obtain ⟨t, ht1, tis⟩ := ok.step w ax ww wi (by rw [← hs]; exact hax) (by rw [← hs]; exact h2) trivial
  have hssh : (Held.of s h.view.item 0).view.shape = h.view.shape.eraseIdx ax := by
    rw [show (Held.of s h.view.item 0).view.shape = _ from sis.1]
    show (Held.of p h.view.item 0).view.shape.eraseIdx ax = _
    rw [hpsh]
  have htsh : (Held.of t h.view.item 0).view.shape = h.view.shape.eraseIdx ax := by
    rw [show (Held.of t h.view.item 0).view.shape = _ from tis.1]
    show w.view.shape.eraseIdx ax = _
    rw [hs]
  obtain ⟨r, hr, ris⟩ := binaryOp_is typed (divOpt (K := K)) (held_of_wf s h.view.item 0) (held_of_wf t h.view.item 0)
    (out := h.view.shape.eraseIdx ax) (by rw [hssh, htsh]; exact isBroadcast_self _) none
  refine ⟨r, ?_, ris.congr ⟨rfl, ?_⟩⟩
  · unfold averageAxis
    rw [hp]
    dsimp only
    rw [hs1, ht1]
    exact hr
  · intro idx hidx
    have hidx : InShape (h.view.shape.eraseIdx ax) idx := hidx
    dsimp only
    rw [bcast_self (a := (Held.of s h.view.item 0).nd) hssh hidx, bcast_self (a := (Held.of t h.view.item 0).nd) htsh hidx,
      (held_of_is sis hi 0).2 idx (by show InShape (Held.of s h.view.item 0).view.shape _; rw [hssh]; exact hidx),
      (held_of_is tis hi 0).2 idx (by show InShape (Held.of t h.view.item 0).view.shape _; rw [htsh]; exact hidx)]
    show divOpt (List.foldl _ _ ((List.range ((Held.of p h.view.item 0).view.shape.getD ax 0)).map
      fun k => (Held.of p h.view.item 0).nd.get (idx.insertIdx ax k)))
      (List.foldl _ _ ((List.range (w.view.shape.getD ax 0)).map fun k => w.nd.get (idx.insertIdx ax k))) = _
    rw [foldl_add_eq_sum, foldl_add_eq_sum, hpsh, ← hs]
    unfold divOpt weightedMean
    rw [List.zipWith_map, List.zipWith_self]
    have e : (List.range (h.view.shape.getD ax 0)).map (fun k => (Held.of p h.view.item 0).nd.get (idx.insertIdx ax k)) =
        (List.range (h.view.shape.getD ax 0)).map fun k => h.nd.get (idx.insertIdx ax k) * w.nd.get (idx.insertIdx ax k) := by
      refine List.map_congr_left fun k hk => ?_
      have hin : InShape h.view.shape (idx.insertIdx ax k) := inShape_insertIdx hax hidx (List.mem_range.1 hk)
      rw [hpd.2 _ (by show InShape (Held.of p h.view.item 0).view.shape _; rw [hpsh]; exact hin)]
      dsimp only
      rw [bcast_self (a := h.nd) (s := h.view.shape) rfl hin, bcast_self (a := w.nd) hs.symm hin]
    rw [e]

example : averageAxis false (ratHeld [2, 2] [1, 2, 3, 4]) (ratHeld [2, 2] [1, 0, 3, 0]) 0 = some ⟨[2], [some (5 / 2), none]⟩ ∧
    average false (ratHeld [2, 2] [1, 2, 3, 4]) (some (ratHeld [2, 2] [1, 0, 3, 0])) = some (some (5 / 2)) := by decide +kernel

/-- Weights of another shape: without an axis, the sum of the weights is not taken over the broadcast weights, so the mean of two
equal rows is doubled; along an axis, weights for that axis are laid along the last axis and their sum is one number; in other
cases the call panics. NumPy refuses the first, and for the second gives `[(1 * 1 + 3 * 3) / 4, (2 * 1 + 4 * 3) / 4]`. -/
theorem C77_average_counterexample :
    average false (ratHeld [2, 2] [1, 1, 1, 1]) (some (ratHeld [2] [1, 3])) = some (some 2) ∧
    averageAxis false (ratHeld [2, 2] [1, 2, 3, 4]) (ratHeld [2] [1, 3]) 0 = some ⟨[2], [some 1, some (9 / 2)]⟩ ∧
    averageAxis false (ratHeld [2, 2] [1, 2, 3, 4]) (ratHeld [2] [1, 3]) 1 = none ∧
    averageAxis false (ratHeld [2, 3] [1, 2, 3, 4, 5, 6]) (ratHeld [2] [1, 3]) 0 = none := by decide +kernel

end Props
