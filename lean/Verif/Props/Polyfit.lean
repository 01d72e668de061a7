import Mathlib.Data.Matrix.Mul
import Verif.Props.Poly
/-!
# C47: least-squares polynomial fits
-/

namespace Props
open Spec Rumpy Polynomial

/-- What the theorems assume about faer's thin QR decomposition of an `n × p` matrix `m` (a list of rows): `q r = m`,
the columns of `q` are orthonormal, `r` is upper triangular. -/
structure IsQr [Field K] (m : List (List K)) (n p : Nat) (q r : Nat → Nat → K) : Prop where
  mul : ∀ i < n, ∀ j < p, ∑ k ∈ Finset.range p, q i k * r k j = (m.getD i []).getD j 0
  orth : ∀ j < p, ∀ l < p, ∑ i ∈ Finset.range n, q i j * q i l = if j = l then 1 else 0
  upper : ∀ i j, j < i → r i j = 0

theorem foldl_sub [AddCommGroup K] (f : Nat → K) : ∀ (n s : Nat) (x : K),
    (List.range' s n).foldl (fun acc j => acc - f j) x = x - ∑ j ∈ Finset.Ico s (s + n), f j := by
  intro n
  induction n with
  | zero => intro s x; simp
  | succ n ih =>
    intro s x
    have e := Finset.sum_eq_sum_Ico_succ_bot (by omega : s < s + (n + 1)) f
    rw [List.range'_succ, List.foldl_cons, ih, e, show s + 1 + n = s + (n + 1) by omega]
    abel

/-- Back substitution solves the triangular system. -/
theorem backSub_eq [Field K] [LinearOrder K] {eps : K} {r : Nat → Nat → K} {qty : Nat → K} {cols : Nat}
    (hr : ∀ i < cols, ¬ |r i i| < eps) (hr0 : ∀ i < cols, r i i ≠ 0) : ∀ (i : Nat) (cs : List K), i ≤ cols → cs.length = cols - i →
    (∀ k, i ≤ k → k < cols → ∑ j ∈ Finset.Ico k cols, r k j * cs.getD (j - i) 0 = qty k) →
    (backSub eps r qty cols i cs).length = cols ∧
      ∀ k < cols, ∑ j ∈ Finset.Ico k cols, r k j * (backSub eps r qty cols i cs).getD j 0 = qty k := by
  intro i
  induction i with
  | zero =>
    intro cs _ hl h
    refine ⟨by rw [backSub]; omega, fun k hk => ?_⟩
    simpa [backSub] using h k (by omega) hk
  | succ i ih =>
    intro cs hi hl h
    rw [backSub]
    rw [if_neg (hr i (by omega)), foldl_sub (fun j => r i j * cs.getD (j - (i + 1)) 0), show i + 1 + (cols - (i + 1)) = cols by omega]
    apply ih _ (by omega) (by simp [hl]; omega)
    intro k hk hkc
    by_cases hki : k = i
    · subst hki
      rw [Finset.sum_eq_sum_Ico_succ_bot hkc]
      have e : ∀ j ∈ Finset.Ico (k + 1) cols, ∀ x : K, r k j * (x :: cs).getD (j - k) 0 = r k j * cs.getD (j - (k + 1)) 0 := by
        intro j hj x
        rw [Finset.mem_Ico] at hj
        rw [show j - k = (j - (k + 1)) + 1 by omega, List.getD_cons_succ]
      rw [Finset.sum_congr rfl fun j hj => e j hj _]
      rw [Nat.sub_self, List.getD_cons_zero, mul_div_cancel₀ _ (hr0 k hkc)]
      ring
    · rw [← h k (by omega) hkc]
      refine Finset.sum_congr rfl fun j hj => ?_
      rw [Finset.mem_Ico] at hj
      rw [show j - i = (j - (i + 1)) + 1 by omega, List.getD_cons_succ]

theorem vanderRow_eq [CommSemiring K] (x : K) (deg : Nat) :
    vanderRow x deg = (List.range (deg + 1)).map fun j => x ^ (deg - j) := by
  have : ∀ d, (List.range d).foldl (fun (st : List K × K) _ => ((st.2 * x) :: st.1, st.2 * x)) ([1], 1)
      = ((List.range (d + 1)).map fun j => x ^ (d - j), x ^ d) := by
    intro d
    induction d with
    | zero => simp
    | succ d ih =>
      rw [List.range_succ, List.foldl_append, ih]
      simp only [List.foldl_cons, List.foldl_nil, Prod.mk.injEq]
      refine ⟨?_, by ring⟩
      conv_rhs => rw [List.range_succ_eq_map, List.map_cons, List.map_map]
      congr 1
      · simp [pow_succ]
      · refine List.map_congr_left fun j _ => ?_
        simp
  unfold vanderRow
  rw [this]

/-- A row of the Vandermonde matrix times a coefficient list is the value of the polynomial. -/
theorem vander_eval [CommSemiring K] (x : K) {deg : Nat} {c : List K} (hc : c.length = deg + 1) :
    ∑ l ∈ Finset.range (deg + 1), x ^ (deg - l) * c.getD l 0 = (polyHigh c).eval x := by
  have hsupp : (polyHigh c).natDegree < deg + 1 := by
    have : (polyHigh c).natDegree ≤ deg := by
      rw [natDegree_le_iff_coeff_eq_zero]
      intro k hk
      rw [polyHigh_coeff]
      exact getD_of_le (by simp; omega)
    omega
  rw [eval_eq_sum_range' hsupp, ← Finset.sum_range_reflect]
  refine Finset.sum_congr rfl fun l hl => ?_
  rw [Finset.mem_range] at hl
  rw [polyHigh_coeff, reverse_getD (by omega), hc, show deg - (deg + 1 - 1 - l) = l by omega,
    show deg + 1 - 1 - l = deg - l by omega, mul_comm]

/-- The sum of weighted squared residuals of a polynomial. -/
noncomputable def residual [CommRing K] (xs ys ws : List K) (p : K[X]) : K :=
  ∑ i ∈ Finset.range xs.length, ws.getD i 0 * (ys.getD i 0 - p.eval (xs.getD i 0)) ^ 2

/-- Least squares from a QR decomposition: the solution of the triangular system has the smallest residual. -/
theorem lstsq_min [Field K] [LinearOrder K] [IsStrictOrderedRing K] {n p : Nat} {V q r : Nat → Nat → K} {y c : Nat → K}
    (hmul : ∀ i < n, ∀ j < p, ∑ k ∈ Finset.range p, q i k * r k j = V i j)
    (horth : ∀ j < p, ∀ l < p, ∑ i ∈ Finset.range n, q i j * q i l = if j = l then 1 else 0)
    (hsol : ∀ k < p, ∑ l ∈ Finset.range p, r k l * c l = ∑ i ∈ Finset.range n, q i k * y i) (c' : Nat → K) :
    ∑ i ∈ Finset.range n, (y i - ∑ l ∈ Finset.range p, V i l * c l) ^ 2
      ≤ ∑ i ∈ Finset.range n, (y i - ∑ l ∈ Finset.range p, V i l * c' l) ^ 2 := by
  let Vm : Matrix (Fin n) (Fin p) K := fun i j => V i j
  let Q : Matrix (Fin n) (Fin p) K := fun i j => q i j
  let R : Matrix (Fin p) (Fin p) K := fun i j => r i j
  let yv : Fin n → K := fun i => y i
  let cv : Fin p → K := fun i => c i
  let dv : Fin p → K := fun i => c' i
  have hV : Vm = Q * R := by
    ext i j
    rw [Matrix.mul_apply]
    show V i j = ∑ k : Fin p, q i k * r k j
    rw [Fin.sum_univ_eq_sum_range (fun k => q i k * r k j) p, hmul i i.2 j j.2]
  have hQ : Q.transpose * Q = 1 := by
    ext j l
    rw [Matrix.mul_apply, Matrix.one_apply]
    show ∑ i : Fin n, q i j * q i l = _
    rw [Fin.sum_univ_eq_sum_range (fun i => q i j * q i l) n, horth j j.2 l l.2]
    simp [Fin.ext_iff]
  have hR : R.mulVec cv = Q.transpose.mulVec yv := by
    funext k
    show ∑ l : Fin p, r k l * c l = ∑ i : Fin n, q i k * y i
    rw [Fin.sum_univ_eq_sum_range (fun l => r k l * c l) p, Fin.sum_univ_eq_sum_range (fun i => q i k * y i) n, hsol k k.2]
  have hres : Vm.transpose.mulVec (yv - Vm.mulVec cv) = 0 := by
    rw [hV, Matrix.transpose_mul, ← Matrix.mulVec_mulVec, Matrix.mulVec_sub, ← Matrix.mulVec_mulVec, Matrix.mulVec_mulVec, hQ,
      Matrix.one_mulVec, hR, sub_self, Matrix.mulVec_zero]
  have conv : ∀ d : Nat → K, ∑ i ∈ Finset.range n, (y i - ∑ l ∈ Finset.range p, V i l * d l) ^ 2
      = (yv - Vm.mulVec fun l : Fin p => d l) ⬝ᵥ (yv - Vm.mulVec fun l : Fin p => d l) := by
    intro d
    have e : ∀ i : Fin n, (yv - Vm.mulVec fun l : Fin p => d l) i = y i - ∑ l ∈ Finset.range p, V i l * d l := by
      intro i
      show y i - ∑ l : Fin p, V i l * d l = _
      rw [Fin.sum_univ_eq_sum_range (fun l => V i l * d l) p]
    unfold dotProduct
    simp only [e]
    rw [Fin.sum_univ_eq_sum_range (fun i => (y i - ∑ l ∈ Finset.range p, V i l * d l) * (y i - ∑ l ∈ Finset.range p, V i l * d l)) n]
    exact Finset.sum_congr rfl fun i _ => sq _
  rw [conv c, conv c']
  show (yv - Vm.mulVec cv) ⬝ᵥ (yv - Vm.mulVec cv) ≤ (yv - Vm.mulVec dv) ⬝ᵥ (yv - Vm.mulVec dv)
  have hsplit : yv - Vm.mulVec dv = (yv - Vm.mulVec cv) + Vm.mulVec (cv - dv) := by
    rw [Matrix.mulVec_sub]; abel
  have hcross : (yv - Vm.mulVec cv) ⬝ᵥ Vm.mulVec (cv - dv) = 0 := by
    rw [Matrix.dotProduct_mulVec, ← Matrix.mulVec_transpose, hres, zero_dotProduct]
  have hnn : 0 ≤ Vm.mulVec (cv - dv) ⬝ᵥ Vm.mulVec (cv - dv) :=
    Finset.sum_nonneg fun i _ => mul_self_nonneg _
  rw [hsplit, add_dotProduct, dotProduct_add, dotProduct_add, hcross, dotProduct_comm (Vm.mulVec (cv - dv)) (yv - Vm.mulVec cv), hcross]
  linarith

/-- C47 (partial): `polyfit` returns `deg + 1` coefficients whose polynomial has the smallest weighted sum of squared
residuals among all polynomials of degree at most `deg`.  Assumed: exact square roots, faer's QR decomposition, and no
diagonal entry of `r` below `eps = 1e-15` (otherwise the code puts a zero).  The weights multiply the squared residuals;
NumPy's weights multiply the residuals, see `C47_polyfit_weights_counterexample`. -/
theorem C47_polyfit_partial [Field K] [LinearOrder K] [IsStrictOrderedRing K] (eps : K) (heps : 0 < eps) (sqrt : K → K)
    (qr : List (List K) → Option ((Nat → Nat → K) × (Nat → Nat → K))) (x y : Held K) (hx : x.view.WF) (hy : y.view.WF)
    (deg : Nat) (w : Option (Held K)) (hw : ∀ wa ∈ w, wa.view.WF) (ws : List K)
    (hws : ws = w.elim (List.replicate x.nd.toList.length 1) fun wa => wa.nd.toList)
    (hsqrt : ∀ v ∈ ws, sqrt v * sqrt v = v) (hsqrt1 : w = none → sqrt 1 = 1)
    (hlen : x.nd.toList.length = y.nd.toList.length) (hwlen : ws.length = x.nd.toList.length) (hdeg : deg < x.nd.toList.length)
    (hqr : ∀ m : List (List K), m.length = x.nd.toList.length → (∀ row ∈ m, row.length = deg + 1) →
      ∃ q r, qr m = some (q, r) ∧ IsQr m m.length (deg + 1) q r ∧ ∀ i < deg + 1, eps ≤ |r i i|) :
    ∃ c, polyfit eps sqrt qr x y deg w = some ⟨[deg + 1], c⟩ ∧ c.length = deg + 1 ∧
      ∀ c' : List K, c'.length = deg + 1 →
        residual x.nd.toList y.nd.toList ws (polyHigh c) ≤ residual x.nd.toList y.nd.toList ws (polyHigh c') := by
  set xs := x.nd.toList with hxs
  set ys := y.nd.toList with hys
  set n := xs.length with hn
  -- the weighted system
  set M : List (List K) := List.zipWith (fun row wv => row.map fun e => e * sqrt wv) (xs.map fun xv => vanderRow xv deg) ws with hM
  set Y : List K := List.zipWith (fun yv wv => yv * sqrt wv) ys ws with hY
  have hvr : ∀ xv : K, (vanderRow xv deg).length = deg + 1 := fun xv => by rw [vanderRow_eq]; simp
  have hMl : M.length = n := by rw [hM]; simp [hwlen, hn]
  have hYl : Y.length = n := by rw [hY]; simp [hwlen, ← hlen]
  have hMr : ∀ row ∈ M, row.length = deg + 1 := by
    intro row hrow
    rw [hM] at hrow
    obtain ⟨i, hi, rfl⟩ := List.mem_iff_getElem.1 hrow
    simp [hvr]
  have hMij : ∀ i < n, ∀ j < deg + 1, (M.getD i []).getD j 0 = xs.getD i 0 ^ (deg - j) * sqrt (ws.getD i 0) := by
    intro i hi j hj
    have e : M[i]'(by omega) = (vanderRow (xs[i]'hi) deg).map fun e => e * sqrt (ws[i]'(by omega)) := by
      simp [hM]
    rw [List.getD_eq_getElem M _ (by omega), e, List.getD_eq_getElem _ _ (by simpa [hvr] using hj), List.getD_eq_getElem xs _ hi,
      List.getD_eq_getElem ws _ (by omega)]
    simp [vanderRow_eq]
  have hYi : ∀ i < n, Y.getD i 0 = ys.getD i 0 * sqrt (ws.getD i 0) := by
    intro i hi
    rw [List.getD_eq_getElem Y _ (by omega), List.getD_eq_getElem ys _ (by omega), List.getD_eq_getElem ws _ (by omega)]
    simp [hY]
  have hweighted : weighted sqrt (xs.map fun xv => vanderRow xv deg) ys w = some (M, Y) := by
    unfold weighted
    cases w with
    | none =>
      have h1 := hsqrt1 rfl
      rw [Option.elim_none] at hws
      dsimp only
      congr 2
      · apply List.ext_getElem
        · rw [hMl]; simp [hn]
        · intro i h1' h2'
          simp [hM, hws, h1]
      · apply List.ext_getElem
        · rw [hYl, hlen]
        · intro i h1' h2'
          simp [hY, hws, h1]
    | some wa =>
      rw [Option.elim_some] at hws
      dsimp only
      rw [toVec_eq (hw wa rfl), ← hws, if_neg (by omega)]
  obtain ⟨q, r, hq, hQR, hdiag⟩ := hqr M hMl hMr
  have hr0 : ∀ i < deg + 1, r i i ≠ 0 := by
    intro i hi h0
    have := hdiag i hi
    rw [h0, abs_zero] at this
    exact absurd this (not_le.2 heps)
  set qty : Nat → K := fun j => ((List.range n).map fun i => q i j * Y.getD i 0).sum with hqty
  have hback := backSub_eq (eps := eps) (r := r) (qty := qty) (cols := deg + 1) (fun i hi => not_lt.2 (hdiag i hi)) hr0
    (deg + 1) [] le_rfl (by simp) (fun k h1 h2 => by omega)
  refine ⟨backSub eps r qty (deg + 1) (deg + 1) [], ?_, hback.1, ?_⟩
  · unfold polyfit
    dsimp only
    rw [toVec_eq hx, toVec_eq hy, ← hxs, ← hys, ← hn, if_neg (by omega)]
    have : (∀ o, o = some (M, Y) → ((o : Option (List (List K) × List K)).bind fun vy => (qr vy.1).map fun d =>
        (⟨[(backSub eps d.2 (fun j => ((List.range n).map fun i => d.1 i j * vy.2.getD i 0).sum) (deg + 1) (deg + 1) []).length],
          backSub eps d.2 (fun j => ((List.range n).map fun i => d.1 i j * vy.2.getD i 0).sum) (deg + 1) (deg + 1) []⟩ : Arr K))
        = some ⟨[deg + 1], backSub eps r qty (deg + 1) (deg + 1) []⟩) := by
      intro o ho
      rw [ho, Option.bind_some, hq, Option.map_some]
      dsimp only
      rw [← hqty, hback.1]
    exact this _ hweighted
  · intro c' hc'
    set c := backSub eps r qty (deg + 1) (deg + 1) [] with hc
    have hres : ∀ d : List K, d.length = deg + 1 → residual xs ys ws (polyHigh d)
        = ∑ i ∈ Finset.range n, (Y.getD i 0 - ∑ l ∈ Finset.range (deg + 1), (M.getD i []).getD l 0 * d.getD l 0) ^ 2 := by
      intro d hd
      unfold residual
      refine Finset.sum_congr rfl fun i hi => ?_
      rw [Finset.mem_range] at hi
      have hwi : sqrt (ws.getD i 0) * sqrt (ws.getD i 0) = ws.getD i 0 := by
        rw [List.getD_eq_getElem _ _ (by omega)]
        exact hsqrt _ (List.getElem_mem _)
      have e : ∑ l ∈ Finset.range (deg + 1), (M.getD i []).getD l 0 * d.getD l 0
          = (polyHigh d).eval (xs.getD i 0) * sqrt (ws.getD i 0) := by
        rw [← vander_eval _ hd, Finset.sum_mul]
        refine Finset.sum_congr rfl fun l hl => ?_
        rw [hMij i hi l (Finset.mem_range.1 hl)]
        ring
      rw [e, hYi i hi]
      linear_combination (-(ys.getD i 0 - (polyHigh d).eval (xs.getD i 0)) ^ 2) * hwi
    rw [hres c hback.1, hres c' hc']
    refine lstsq_min (V := fun i l => (M.getD i []).getD l 0) (q := q) (r := r) (c := fun l => c.getD l 0)
      (by rw [hMl] at hQR; exact hQR.mul) (by rw [hMl] at hQR; exact hQR.orth) (fun k hk => ?_) fun l => c'.getD l 0
    have h := hback.2 k hk
    rw [hqty] at h
    have hs : ((List.range n).map fun i => q i k * Y.getD i 0).sum = ∑ i ∈ Finset.range n, q i k * Y.getD i 0 := by
      have := sum_range' (fun i => q i k * Y.getD i 0) 0 n
      rw [← List.range_eq_range'] at this
      rw [this, Finset.range_eq_Ico, zero_add]
    rw [← hs]
    refine Eq.trans ?_ h
    symm
    rw [Finset.range_eq_Ico]
    refine Finset.sum_subset (Finset.Ico_subset_Ico_left (Nat.zero_le k)) fun j hj hn => ?_
    rw [Finset.mem_Ico] at hj hn
    rw [hQR.upper k j (by omega), zero_mul]

/-- A decomposition of the column `(3, 4)`. -/
def qr34 (_ : List (List ℚ)) : Option ((Nat → Nat → ℚ) × (Nat → Nat → ℚ)) :=
  some (fun i _ => if i = 0 then 3 / 5 else 4 / 5, fun i j => if j < i then 0 else 5)

/-- Square roots of 9 and 16. -/
def sqrt34 (v : ℚ) : ℚ := if v = 9 then 3 else if v = 16 then 4 else 1

/-- C47 disagreement: fitting a constant to the values 0 and 1 with weights 9 and 16 gives 16/25; in NumPy the weights
multiply the residuals before squaring, and 256/337 is better than 16/25 for that sum. -/
theorem C47_polyfit_weights_counterexample :
    IsQr [[3], [4]] 2 1 (fun i _ => if i = 0 then (3 : ℚ) / 5 else 4 / 5) (fun i j => if j < i then 0 else 5) ∧
      weighted sqrt34 [[1], [1]] [0, 1] (some (Held.of ⟨[2], [9, 16]⟩ 8 0)) = some ([[3], [4]], [0, 4]) ∧
      polyfit (1 / 10 ^ 15) sqrt34 qr34 (Held.of ⟨[2], [0, 1]⟩ 8 0) (Held.of ⟨[2], [0, 1]⟩ 8 0) 0
        (some (Held.of ⟨[2], [9, 16]⟩ 8 0)) = some ⟨[1], [16 / 25]⟩ ∧
      residual [0, 1] [0, 1] [9 ^ 2, 16 ^ 2] (polyHigh [(256 / 337 : ℚ)])
        < residual [0, 1] [0, 1] [9 ^ 2, 16 ^ 2] (polyHigh [(16 / 25 : ℚ)]) := by
  refine ⟨⟨?_, ?_, ?_⟩, by decide +kernel, by decide +kernel, ?_⟩
  · decide +kernel
  · decide +kernel
  · intro i j h
    simp [h]
  · simp [residual, polyHigh, polyLow, Finset.sum_range_succ]
    norm_num

/-- Non-vacuity: a constant fitted to four values is their mean; the column of ones has norm 2. -/
example : polyfit (1 / 10 ^ 15) (fun _ => 1) (fun _ => some (fun _ _ => (1 / 2 : ℚ), fun i j => if j < i then 0 else 2))
      (Held.of ⟨[4], [0, 1, 2, 3]⟩ 8 0) (Held.of ⟨[4], [1, 5, 2, 4]⟩ 8 0) 0 none = some ⟨[1], [3]⟩ ∧
    IsQr [[1], [1], [1], [1]] 4 1 (fun _ _ => (1 / 2 : ℚ)) (fun i j => if j < i then 0 else 2) := by
  refine ⟨by decide +kernel, ?_, ?_, ?_⟩
  · decide +kernel
  · decide +kernel
  · intro i j h
    simp [h]

end Props
