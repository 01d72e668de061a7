import Mathlib.Algebra.Polynomial.Roots
import Mathlib.Tactic.LinearCombination
import Mathlib.Tactic.FieldSimp
import Verif.Props.Convolve
import Verif.Props.Reshape
/-!
# C47: polynomials
-/

namespace Props
open Spec Rumpy Polynomial

theorem polyHigh_coeff [Semiring K] (l : List K) (k : Nat) : (polyHigh l).coeff k = l.reverse.getD k 0 := polyLow_coeff _ _

theorem reverse_getD [Zero K] {l : List K} {k : Nat} (hk : k < l.length) : l.reverse.getD k 0 = l.getD (l.length - 1 - k) 0 := by
  rw [List.getD_eq_getElem _ _ (by simpa using hk), List.getD_eq_getElem _ _ (by omega), List.getElem_reverse]

theorem polyHigh_concat [Semiring K] (l : List K) (c : K) : polyHigh (l ++ [c]) = C c + X * polyHigh l := by
  unfold polyHigh
  rw [List.reverse_append]
  rfl

theorem horner [CommSemiring K] (x : K) : ∀ (cs pre : List K),
    cs.foldl (fun acc c => acc * x + c) ((polyHigh pre).eval x) = (polyHigh (pre ++ cs)).eval x
  | [], pre => by simp
  | c :: cs, pre => by
    rw [List.foldl_cons, show pre ++ c :: cs = (pre ++ [c]) ++ cs by simp, ← horner x cs (pre ++ [c]), polyHigh_concat]
    congr 1
    simp only [eval_add, eval_C, eval_mul, eval_X]
    ring

theorem reshaped_eq (data : List K) (shape : List Nat) (h : data.length = size shape) : reshaped data shape = ⟨shape, data⟩ := by
  unfold reshaped
  have hs : ((View.fresh [data.length] 8).reshape shape).isSome := by
    rw [C08_reshape_succeeds_iff]
    refine ⟨?_, Or.inl rfl⟩
    show size [data.length] = size shape
    simp [size, h]
  obtain ⟨w, hw⟩ := Option.isSome_iff_exists.1 hs
  rw [hw]
  have := (reshape_shape_wf hw).1
  dsimp only
  rw [this]

/-- C47: `polyval` evaluates the polynomial at every element of `x`, for every layout of both arrays. -/
theorem C47_polyval [CommSemiring K] (p x : Held K) (hp : p.view.WF) (hx : x.view.WF) :
    (polyval p x).Is ⟨x.nd.shape, fun idx => (polyHigh p.nd.toList).eval (x.nd.get idx)⟩ := by
  unfold polyval
  rw [toVec_eq hp]
  cases hl : p.nd.toList with
  | nil =>
    refine ⟨rfl, ?_⟩
    show List.replicate (Rumpy.sizeOf x.view.shape) 0 = (indices x.view.shape).map _
    rw [sizeOf_eq, ← length_indices]
    simp [polyHigh, polyLow]
  | cons c cs =>
    dsimp only
    have e : ∀ off, cs.foldl (fun acc c => acc * x.mem off + c) c = (polyHigh (c :: cs)).eval (x.mem off) := by
      intro off
      have := horner (x.mem off) cs [c]
      simpa [polyHigh, polyLow] using this
    simp only [e]
    rw [reshaped_eq _ _ (by rw [List.length_map, addrs_eq hx, List.length_map, length_indices])]
    refine ⟨rfl, ?_⟩
    show x.view.addrs.map _ = (indices x.view.shape).map _
    rw [addrs_eq hx, List.map_map]
    rfl

theorem polyderStep_length [Semiring K] (l : List K) : (polyderStep l).length = l.length - 1 := by simp [polyderStep]

theorem polyderStep_getD [Semiring K] {l : List K} {i : Nat} (h : i < l.length - 1) :
    (polyderStep l).getD i 0 = l.getD i 0 * ((l.length - 1 - i : Nat) : K) := by
  rw [List.getD_eq_getElem _ _ (by rw [polyderStep_length]; exact h), List.getD_eq_getElem _ _ (by omega)]
  simp [polyderStep]

theorem polyderStep_eq [Semiring K] (l : List K) : polyHigh (polyderStep l) = derivative (polyHigh l) := by
  ext k
  rw [coeff_derivative, polyHigh_coeff, polyHigh_coeff]
  by_cases hk : k + 1 < l.length
  · rw [reverse_getD (by rw [polyderStep_length]; omega), reverse_getD hk, polyderStep_length, polyderStep_getD (by omega),
      show l.length - 1 - (l.length - 1 - 1 - k) = k + 1 by omega, show l.length - 1 - 1 - k = l.length - 1 - (k + 1) by omega]
    push_cast
    rfl
  · rw [getD_of_le (by simp [polyderStep_length]; omega), getD_of_le (by simp; omega), zero_mul]

theorem polyderLoop_eq [Semiring K] : ∀ (m : Nat) (l : List K),
    polyHigh (polyderLoop m l) = derivative^[m] (polyHigh l) ∧ (polyderLoop m l).length = l.length - m
  | 0, l => by simp [polyderLoop]
  | m + 1, l => by
    rw [polyderLoop]
    split
    · rename_i h
      refine ⟨?_, by simp; omega⟩
      rw [Function.iterate_succ_apply, ← polyderStep_eq]
      have : polyderStep l = [] := by rw [← List.length_eq_zero_iff, polyderStep_length]; omega
      rw [this]
      symm
      have z : polyHigh ([] : List K) = 0 := rfl
      rw [z]
      exact iterate_map_zero derivative m
    · have := polyderLoop_eq m (polyderStep l)
      rw [this.1, this.2, polyderStep_eq, polyderStep_length]
      exact ⟨rfl, by omega⟩

/-- A copy of a vector. -/
theorem copy_list [Zero K] {p : Held K} (hp : p.view.WF) (hal : ∀ s ∈ p.view.strides, (p.view.item : Int) ∣ s) :
    (copyArr true p.mem p.view 0).data = p.nd.toList := (copyArr_eq true p.mem hp (fun _ => hal) 0).2

/-- C47: `polyder` returns the coefficients of the `m`-th derivative, `m` coefficients fewer. -/
theorem C47_polyder [Semiring K] (p : Held K) (hp : p.view.WF) (hal : ∀ s ∈ p.view.strides, (p.view.item : Int) ∣ s) (m : Nat) :
    polyHigh (polyder p m).data = derivative^[m] (polyHigh p.nd.toList) ∧
      (polyder p m).data.length = p.nd.toList.length - m := by
  unfold polyder
  split
  · rename_i h
    subst h
    rw [copy_list hp hal]
    simp
  · rw [toVec_eq hp]
    exact polyderLoop_eq m _

theorem polyintStep_length [Field K] (l : List K) (c : K) : (polyintStep l c).length = l.length + 1 := by simp [polyintStep]

theorem polyintStep_getD [Field K] {l : List K} (c : K) {i : Nat} (h : i < l.length) :
    (polyintStep l c).getD i 0 = l.getD i 0 / ((l.length - i : Nat) : K) := by
  rw [List.getD_eq_getElem _ _ (by rw [polyintStep_length]; omega), List.getD_eq_getElem _ _ h]
  unfold polyintStep
  rw [List.getElem_append_left (by simpa using h)]
  simp

theorem polyintStep_eq [Field K] [CharZero K] (l : List K) (c : K) :
    derivative (polyHigh (polyintStep l c)) = polyHigh l ∧ (polyHigh (polyintStep l c)).coeff 0 = c := by
  constructor
  · ext k
    rw [coeff_derivative, polyHigh_coeff, polyHigh_coeff]
    by_cases hk : k < l.length
    · rw [reverse_getD (by rw [polyintStep_length]; omega), reverse_getD hk, polyintStep_length,
        show l.length + 1 - 1 - (k + 1) = l.length - 1 - k by omega, polyintStep_getD c (by omega),
        show l.length - (l.length - 1 - k) = k + 1 by omega]
      have : ((k + 1 : Nat) : K) ≠ 0 := by exact_mod_cast Nat.succ_ne_zero k
      push_cast at this ⊢
      rw [div_mul_cancel₀ _ this]
    · rw [getD_of_le (by simp [polyintStep_length]; omega), getD_of_le (by simp; omega), zero_mul]
  · rw [polyHigh_coeff]
    simp [polyintStep]

theorem polyintLoop_eq [Field K] [CharZero K] (k : Nat → K) (l : List K) : ∀ m : Nat,
    let d := (List.range m).foldl (fun coeffs i => polyintStep coeffs (k i)) l
    derivative^[m] (polyHigh d) = polyHigh l ∧ d.length = l.length + m ∧
      ∀ i < m, (derivative^[m - 1 - i] (polyHigh d)).coeff 0 = k i := by
  intro m
  induction m with
  | zero => simp
  | succ m ih =>
    dsimp only at ih ⊢
    rw [List.range_succ, List.foldl_append, List.foldl_cons, List.foldl_nil]
    set d := (List.range m).foldl (fun coeffs i => polyintStep coeffs (k i)) l
    obtain ⟨h1, h2, h3⟩ := ih
    obtain ⟨s1, s2⟩ := polyintStep_eq d (k m)
    refine ⟨?_, by rw [polyintStep_length, h2]; omega, ?_⟩
    · rw [Function.iterate_succ_apply, s1, h1]
    · intro i hi
      by_cases him : i = m
      · subst him
        rw [show i + 1 - 1 - i = 0 by omega]
        exact s2
      · rw [show m + 1 - 1 - i = (m - 1 - i) + 1 by omega, Function.iterate_succ_apply, s1, h3 i (by omega)]

/-- C47: `polyint` returns an `m`-th antiderivative: its `m`-th derivative is the polynomial. -/
theorem C47_polyint [Field K] [CharZero K] (p : Held K) (hp : p.view.WF) (hal : ∀ s ∈ p.view.strides, (p.view.item : Int) ∣ s)
    (m : Nat) (k : Option (Held K)) :
    derivative^[m] (polyHigh (polyint p m k).data) = polyHigh p.nd.toList ∧
      (polyint p m k).data.length = p.nd.toList.length + m := by
  unfold polyint
  split
  · rename_i h
    subst h
    rw [copy_list hp hal]
    simp
  · dsimp only
    rw [toVec_eq hp]
    have := polyintLoop_eq (fun i => ((k.map toVec).getD []).getD (m - 1 - i) 0) p.nd.toList m
    exact ⟨this.1, this.2.1⟩

/-- C47: `polyder` undoes `polyint`, coefficient by coefficient. -/
theorem C47_polyder_polyint [Field K] [CharZero K] (p : Held K) (hp : p.view.WF)
    (hal : ∀ s ∈ p.view.strides, (p.view.item : Int) ∣ s) (m : Nat) (hm : 0 < m) (k : Option (Held K)) :
    (polyder (Held.of (polyint p m k) 8 0) m).data = p.nd.toList := by
  obtain ⟨i1, i2⟩ := C47_polyint p hp hal m k
  have hs : (polyint p m k).shape = [(polyint p m k).data.length] := by
    unfold polyint
    rw [if_neg (by omega)]
  have hd : (Held.of (polyint p m k) 8 0).nd.toList = (polyint p m k).data := by
    generalize polyint p m k = r at hs
    obtain ⟨sh, d⟩ := r
    dsimp only at hs
    subst hs
    exact held_vector rfl
  obtain ⟨d1, d2⟩ := C47_polyder (Held.of (polyint p m k) 8 0) (View.WF.fresh _ _) (by
    show ∀ s ∈ cStrides (polyint p m k).shape 8, (8 : Int) ∣ s
    rw [hs]
    simp [cStrides, cStridesAux]) m
  rw [hd, i1] at d1
  rw [hd, i2] at d2
  have hlen : (polyder (Held.of (polyint p m k) 8 0) m).data.length = p.nd.toList.length := by omega
  rw [← List.reverse_inj]
  apply List.ext_getElem (by simpa using hlen)
  intro i h1 h2
  have := congrArg (fun q => q.coeff i) d1
  simp only [polyHigh_coeff] at this
  rw [List.getD_eq_getElem _ _ h1, List.getD_eq_getElem _ _ h2] at this
  exact this

/-- C47 (partial): the constant of integration that belongs to the `j`-th derivative of the result is `k[j]`.  NumPy
gives the constants in the order of integration, which is the reverse, see `C47_polyint_constants_counterexample`;
for `m = 1` the two agree. -/
theorem C47_polyint_constants_partial [Field K] [CharZero K] (p : Held K) (hp : p.view.WF) (m : Nat) (hm : 0 < m) (k : Held K)
    (hk : k.view.WF) (j : Nat) (hj : j < m) :
    (derivative^[j] (polyHigh (polyint p m (some k)).data)).coeff 0 = k.nd.toList.getD j 0 := by
  unfold polyint
  rw [if_neg (by omega)]
  dsimp only
  rw [toVec_eq hp, Option.map_some, Option.getD_some, toVec_eq hk]
  have := (polyintLoop_eq (fun i => k.nd.toList.getD (m - 1 - i) 0) p.nd.toList m).2.2 (m - 1 - j) (by omega)
  rw [show m - 1 - (m - 1 - j) = j by omega] at this
  exact this

/-- C47 disagreement: integrating 6 twice with constants `[5, 7]` gives `3x² + 7x + 5`; NumPy, which uses 5 first,
gives `3x² + 5x + 7`. -/
theorem C47_polyint_constants_counterexample :
    (polyint (K := ℚ) (Held.of ⟨[1], [6]⟩ 8 0) 2 (some (Held.of ⟨[2], [5, 7]⟩ 8 0))).data = [3, 7, 5] := by
  decide +kernel

/-- Non-vacuity: `2x² + 3x + 1` at 0, 1, 2 and its derivative. -/
example : polyval (K := ℚ) (Held.of ⟨[3], [2, 3, 1]⟩ 8 0) (Held.of ⟨[3], [0, 1, 2]⟩ 8 0) = ⟨[3], [1, 6, 15]⟩ := by decide +kernel

example : (polyder (K := ℚ) (Held.of ⟨[3], [2, 3, 1]⟩ 8 0) 1).data = [4, 3] := by decide +kernel

/-! ### Roots -/

theorem stripLeading_eq [AddCommGroup K] [LinearOrder K] {eps : K} : ∀ {l : List K}, (∀ c ∈ l, |c| < eps → c = 0) →
    ∃ z, l = List.replicate z 0 ++ stripLeading eps l
  | [], _ => ⟨0, rfl⟩
  | c :: cs, h => by
    rw [stripLeading]
    split
    · rename_i hc
      obtain ⟨z, hz⟩ := stripLeading_eq (l := cs) fun x hx => h x (by simp [hx])
      refine ⟨z + 1, ?_⟩
      rw [List.replicate_succ, List.cons_append, ← hz, h c (by simp) hc]
    · exact ⟨0, rfl⟩

theorem stripLeading_head [AddCommGroup K] [LinearOrder K] {eps : K} : ∀ {l : List K} {c : K} {cs : List K},
    stripLeading eps l = c :: cs → ¬ |c| < eps
  | [], c, cs, h => by simp [stripLeading] at h
  | x :: xs, c, cs, h => by
    rw [stripLeading] at h
    split at h
    · exact stripLeading_head h
    · cases h; assumption

theorem polyHigh_zeros [Semiring K] (z : Nat) (l : List K) : polyHigh (List.replicate z 0 ++ l) = polyHigh l := by
  ext k
  rw [polyHigh_coeff, polyHigh_coeff, List.reverse_append, List.reverse_replicate]
  by_cases hk : k < l.length
  · rw [List.getD_append _ _ _ _ (by simpa using hk)]
  · rw [getD_of_le (l := l.reverse) (by simp; omega), List.getD_append_right _ _ _ _ (by simp; omega)]
    by_cases h2 : k - l.reverse.length < z
    · rw [List.getD_eq_getElem _ _ (by simpa using h2)]; simp
    · exact List.getD_eq_default _ _ (by simpa using h2)

/-- C47 (partial): for polynomials of degree at most 2 (leading zeros allowed), `roots` returns exactly the real roots,
with multiplicity, the larger magnitude first.  `sqrt` is an exact square root.  Missing: higher degrees (an
iteration with a QR decomposition that is not modelled), complex roots
(`C47_roots_complex_counterexample`), and coefficients that are not zero but smaller than `eps = 1e-15`
(`C47_roots_small_counterexample`). -/
theorem C47_roots_partial [Field K] [LinearOrder K] [IsStrictOrderedRing K] (eps : K) (heps : 0 < eps) (sqrt : K → K)
    (hsqrt : ∀ x, 0 ≤ x → sqrt x * sqrt x = x) (companion : List K → Option (List K)) (p : Held K) (hp : p.view.WF)
    (hsmall : ∀ c ∈ p.nd.toList, |c| < eps → c = 0) (hdeg : (polyHigh p.nd.toList).natDegree ≤ 2) :
    ∃ rs, Rumpy.roots eps sqrt companion p = some rs ∧ (polyHigh p.nd.toList).roots = (rs : Multiset K) ∧
      rs.Pairwise fun x y => |y| ≤ |x| := by
  obtain ⟨z, hz⟩ := stripLeading_eq hsmall
  have hpoly : polyHigh p.nd.toList = polyHigh (stripLeading eps p.nd.toList) := by
    conv_lhs => rw [hz]
    exact polyHigh_zeros _ _
  unfold Rumpy.roots
  rw [toVec_eq hp]
  rw [hpoly] at hdeg ⊢
  have hne : ∀ c : K, ¬ |c| < eps → c ≠ 0 := by
    intro c hc h0
    apply hc
    rw [h0, abs_zero]
    exact heps
  match hs : stripLeading eps p.nd.toList with
  | [] => exact ⟨[], rfl, by simp [polyHigh, polyLow], List.Pairwise.nil⟩
  | [c] => exact ⟨[], rfl, by simp [polyHigh, polyLow], List.Pairwise.nil⟩
  | [a, b] =>
    have ha := hne _ (stripLeading_head hs)
    refine ⟨[-(b / a)], rfl, ?_, by simp⟩
    have : polyHigh [a, b] = C a * (X - C (-(b / a))) := by
      simp only [polyHigh, polyLow, List.reverse_cons, List.reverse_nil, List.nil_append, List.cons_append]
      rw [mul_sub, ← C_mul, show a * -(b / a) = -b by field_simp]
      simp only [C_neg, mul_zero, add_zero, sub_neg_eq_add]
      ring
    rw [this, roots_C_mul _ ha, roots_X_sub_C]
    rfl
  | [a, b, c] =>
    have ha := hne _ (stripLeading_head hs)
    dsimp only
    have hexp : polyHigh [a, b, c] = C c + X * (C b + X * C a) := by
      simp [polyHigh, polyLow]
    split
    · rename_i hd
      set s := sqrt (b / a * (b / a) - 4 * (c / a)) with hsdef
      have hs2 := hsqrt _ hd
      rw [← hsdef] at hs2
      refine ⟨_, rfl, ?_, ?_⟩
      · have : polyHigh [a, b, c] = C a * ((X - C ((-(b / a) + s) / 2)) * (X - C ((-(b / a) - s) / 2))) := by
          have e1 : a * (((-(b / a) + s) / 2) * ((-(b / a) - s) / 2)) = c := by
            have : ((-(b / a) + s) / 2) * ((-(b / a) - s) / 2) = c / a := by
              linear_combination (-1 / 4 : K) * hs2
            rw [this, mul_div_cancel₀ _ ha]
          have e2 : a * (((-(b / a) + s) / 2) + ((-(b / a) - s) / 2)) = -b := by
            have : ((-(b / a) + s) / 2) + ((-(b / a) - s) / 2) = -(b / a) := by ring
            rw [this, mul_neg, mul_div_cancel₀ _ ha]
          generalize (-(b / a) + s) / 2 = r1 at e1 e2
          generalize (-(b / a) - s) / 2 = r2 at e1 e2
          rw [hexp, show c = a * (r1 * r2) from e1.symm, show b = -(a * (r1 + r2)) by rw [e2, neg_neg]]
          simp only [C_neg, C_mul, C_add]
          ring
        rw [this, roots_C_mul _ ha, roots_mul (mul_ne_zero (X_sub_C_ne_zero _) (X_sub_C_ne_zero _)), roots_X_sub_C, roots_X_sub_C]
        exact (Multiset.coe_eq_coe.2 (List.perm_insertionSort _ _)).symm
      · have : Std.Total (fun x y : K => |y| ≤ |x|) := ⟨fun x y => le_total _ _⟩
        have : IsTrans K (fun x y : K => |y| ≤ |x|) := ⟨fun x y z h1 h2 => le_trans h2 h1⟩
        exact List.pairwise_insertionSort _ _
    · rename_i hd
      refine ⟨[], rfl, ?_, List.Pairwise.nil⟩
      rw [Multiset.coe_nil, Multiset.eq_zero_iff_forall_notMem]
      intro x hx
      apply hd
      have h0 := isRoot_of_mem_roots hx
      rw [hexp, IsRoot.def] at h0
      simp only [eval_add, eval_C, eval_mul, eval_X] at h0
      have : b / a * (b / a) - 4 * (c / a) = (2 * x + b / a) ^ 2 := by
        have hc : c = -(x * (b + x * a)) := by linear_combination h0
        rw [hc]
        field_simp
        ring
      rw [this]
      exact sq_nonneg _
  | a :: b :: c :: d :: l =>
    exfalso
    have ha := hne _ (stripLeading_head hs)
    rw [hs] at hdeg
    have hcoef : (polyHigh (a :: b :: c :: d :: l)).coeff (l.length + 3) = a := by
      rw [polyHigh_coeff, reverse_getD (by simp)]
      simp
    have := le_natDegree_of_ne_zero (hcoef.trans_ne ha)
    omega

/-- C47 disagreement: `x² + 1` has the roots `±i`; the result is empty. -/
theorem C47_roots_complex_counterexample (sqrt : ℚ → ℚ) (companion : List ℚ → Option (List ℚ)) :
    Rumpy.roots (1 / 10 ^ 15) sqrt companion (Held.of ⟨[3], [1, 0, 1]⟩ 8 0) = some [] := by
  have h : stripLeading (1 / 10 ^ 15 : ℚ) (toVec (Held.of ⟨[3], [1, 0, 1]⟩ 8 0)) = [1, 0, 1] := by decide +kernel
  unfold Rumpy.roots
  rw [h]
  dsimp only
  rw [if_neg (by norm_num)]

/-- C47 disagreement: `10⁻¹⁶ x - 1` has the root `10¹⁶`; the result is empty, because the leading coefficient is
taken for zero. -/
theorem C47_roots_small_counterexample (sqrt : ℚ → ℚ) (companion : List ℚ → Option (List ℚ)) :
    Rumpy.roots (1 / 10 ^ 15) sqrt companion (Held.of ⟨[2], [1 / 10 ^ 16, -1]⟩ 8 0) = some [] ∧
      (polyHigh [(1 / 10 ^ 16 : ℚ), -1]).eval (10 ^ 16) = 0 := by
  constructor
  · have h : stripLeading (1 / 10 ^ 15 : ℚ) (toVec (Held.of ⟨[2], [1 / 10 ^ 16, -1]⟩ 8 0)) = [-1] := by decide +kernel
    unfold Rumpy.roots
    rw [h]
  · simp [polyHigh, polyLow]

/-- Non-vacuity: `2x² - 2x - 12` has the roots 3 and -2. -/
example (companion : List ℚ → Option (List ℚ)) :
    Rumpy.roots (1 / 10 ^ 15) (fun _ => 5) companion (Held.of ⟨[3], [2, -2, -12]⟩ 8 0) = some [3, -2] := by
  have h : stripLeading (1 / 10 ^ 15 : ℚ) (toVec (Held.of ⟨[3], [2, -2, -12]⟩ 8 0)) = [2, -2, -12] := by decide +kernel
  unfold Rumpy.roots
  rw [h]
  dsimp only
  norm_num [List.orderedInsert, List.insertionSort]

end Props
