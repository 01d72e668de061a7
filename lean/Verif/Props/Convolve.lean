import Verif.Lemmas.Poly
import Verif.Props.Fft
import Verif.Props.Kron
/-!
# C47: convolution and correlation
-/

namespace Props
open Spec Rumpy Polynomial

theorem convAt_real [Field K] (σ : K →+* K) {a v : List K} (ha : ∀ x ∈ a, σ x = x) (hv : ∀ x ∈ v, σ x = x) (k : Nat) :
    σ (convAt a v k) = convAt a v k := by
  have g : ∀ {l : List K}, (∀ x ∈ l, σ x = x) → ∀ i, σ (l.getD i 0) = l.getD i 0 := by
    intro l h i
    by_cases hi : i < l.length
    · rw [List.getD_eq_getElem _ _ hi, h _ (List.getElem_mem hi)]
    · rw [getD_of_le (by omega), map_zero]
  unfold convAt
  rw [map_sum]
  refine Finset.sum_congr rfl fun p _ => ?_
  rw [map_mul, g ha, g hv]

/-- The Fourier path computes the same entries as the direct path. -/
theorem convolveFft_eq [Field K] [CharZero K] {P : Planner K} {w : Nat → K} {σ : K →+* K} (hE : Exact P w σ) {a v : List K}
    (hane : a ≠ []) (hvne : v ≠ []) (ha : ∀ x ∈ a, σ x = x) (hv : ∀ x ∈ v, σ x = x) :
    convolveFft P a v = (List.range (a.length + v.length - 1)).map (convAt a v) := by
  have h1 := List.length_pos_iff.2 hane
  have h2 := List.length_pos_iff.2 hvne
  unfold convolveFft
  dsimp only
  set L := a.length + v.length - 1 with hL
  have hN : L ≤ 2 ^ Nat.clog 2 L := Nat.le_pow_clog (by decide) L
  set N := 2 ^ Nat.clog 2 L with hNdef
  have hN0 : 0 < N := by omega
  set c := padTo 0 ((List.range L).map (convAt a v)) N with hc
  have hcl : c.length = N := padTo_length _ _
  have hpc : polyLow c = polyLow (padTo 0 a N) * polyLow (padTo 0 v N) := by
    rw [polyLow_congr (padTo_getD (l := a) (by omega)), polyLow_congr (padTo_getD (l := v) (by omega)), hc,
      polyLow_congr (padTo_getD (by simpa using hN))]
    have : convAt a v = (polyLow a * polyLow v).coeff := by
      funext k; rw [coeff_mul_convAt]
    rw [this]
    exact polyLow_map_range _ fun k hk => by rw [coeff_mul_convAt]; exact convAt_of_le hk hane hvne
  have fw : ∀ l : List K, P.fwd N (padTo 0 l N) = (List.range N).map (freq (w N) (padTo 0 l N)) := by
    intro l
    have := hE.fwd (padTo 0 l N)
    rw [padTo_length] at this
    rw [this, dftList_eq, padTo_length]
  have hprod : List.zipWith (· * ·) (P.fwd N (padTo 0 a N)) (P.fwd N (padTo 0 v N))
      = (List.range c.length).map fun k => 1 * freq (w N) c k := by
    rw [fw, fw, hcl, List.zipWith_map, List.zipWith_self]
    refine List.map_congr_left fun k _ => ?_
    rw [freq_eval, freq_eval, freq_eval, hpc, eval_mul, one_mul]
  rw [hprod]
  have hinv := hE.inv ((List.range c.length).map fun k => 1 * freq (w N) c k)
  rw [List.length_map, List.length_range, hcl] at hinv
  rw [hcl, hinv]
  have hroot : IsPrimitiveRoot (w N) c.length := by rw [hcl]; exact hE.root N hN0
  have := dftList_inv hroot (1 : K)
  rw [hcl] at this
  rw [this]
  apply List.ext_getElem
  · simp [hcl]; omega
  · intro k g1 g2
    have hk : k < L := by simpa using g2
    have hNK : (N : K) ≠ 0 := by exact_mod_cast (by omega : N ≠ 0)
    have hck : c[k]'(by omega) = convAt a v k := by
      have := padTo_getD (l := (List.range L).map (convAt a v)) (n := N) (by simpa using hN) k
      rw [← hc, List.getD_eq_getElem _ _ (by omega), List.getD_eq_getElem _ _ (by simpa using hk)] at this
      simpa using this
    simp only [List.getElem_map, List.getElem_take, List.getElem_range, hck, one_mul]
    rw [hE.re]
    · rw [mul_div_cancel_left₀ _ hNK]
    · rw [map_mul, map_natCast, convAt_real σ ha hv]

theorem toVec_eq {h : Held K} (hw : h.view.WF) : toVec h = h.nd.toList := by
  unfold toVec
  rw [sizeOf_eq]
  split
  · rename_i h0
    symm
    rw [← List.length_eq_zero_iff, Nd.toList, List.length_map, length_indices]
    exact h0
  · exact addrs_map hw h.mem

theorem toVec_length {h : Held K} (hw : h.view.WF) : (toVec h).length = size h.view.shape := by
  rw [toVec_eq hw, Nd.toList, List.length_map, length_indices]
  rfl

theorem convolveFull_eq [Field K] [CharZero K] {P : Planner K} {w : Nat → K} {σ : K →+* K} (hE : Exact P w σ) {a v : List K}
    (hane : a ≠ []) (hvne : v ≠ []) (ha : ∀ x ∈ a, σ x = x) (hv : ∀ x ∈ v, σ x = x) :
    convolveFull P a v = some ((List.range (a.length + v.length - 1)).map (convAt a v)) := by
  unfold convolveFull
  split
  · rw [convolveFft_eq hE hane hvne ha hv]
  · exact convolveDirect_eq hane hvne

theorem convolveVals_eq [Field K] [CharZero K] {P : Planner K} {w : Nat → K} {σ : K →+* K} (hE : Exact P w σ) {a v : List K}
    (hane : a ≠ []) (hvne : v ≠ []) (ha : ∀ x ∈ a, σ x = x) (hv : ∀ x ∈ v, σ x = x) (mode : String) (len start : Nat)
    (hm : convWindow mode a.length v.length = some (len, start)) :
    convolveVals P a v mode = .ok ⟨[len], (List.range len).map fun i => convAt a v (start + i)⟩ := by
  have h1 := List.length_pos_iff.2 hane
  have h2 := List.length_pos_iff.2 hvne
  have hb : start + len ≤ a.length + v.length - 1 := by
    unfold convWindow at hm
    split at hm
    · simp only [Option.some.injEq, Prod.mk.injEq] at hm; omega
    · split at hm
      · simp only [Option.some.injEq, Prod.mk.injEq] at hm; omega
      · split at hm
        · simp only [Option.some.injEq, Prod.mk.injEq] at hm; omega
        · simp at hm
  unfold convolveVals
  rw [convolveFull_eq hE hane hvne ha hv]
  dsimp only
  rw [hm]
  dsimp only
  have : takeWindow ((List.range (a.length + v.length - 1)).map (convAt a v)) (len, start)
      = some ⟨[len], (List.range len).map fun i => convAt a v (start + i)⟩ := by
    unfold takeWindow
    dsimp only
    rw [mapM_of_some (g := fun i => convAt a v (start + i))]
    · rfl
    · intro i hi
      rw [List.mem_range] at hi
      rw [List.getElem?_eq_getElem (by simp; omega)]
      simp
  rw [this]

/-- The elements of an array that are real numbers. -/
theorem real_list [Field K] {σ : K →+* K} {h : Held K} (hw : h.view.WF) (hr : RealElems σ h.nd) : ∀ x ∈ toVec h, σ x = x := by
  rw [toVec_eq hw]
  exact hr.list

theorem toVec_ne {h : Held K} (hw : h.view.WF) (h0 : 0 < size h.view.shape) : toVec h ≠ [] := by
  intro e
  have := toVec_length hw
  rw [e] at this
  simp at this
  omega

/-- What `convolve` returns for non-empty operands, in terms of the model's own windows. -/
theorem convolve_raw [Field K] [CharZero K] {P : Planner K} {w : Nat → K} {σ : K →+* K} (hE : Exact P w σ) (a v : Held K)
    (ha : a.view.WF) (hv : v.view.WF) {n m : Nat} (hn : a.view.shape = [n]) (hm : v.view.shape = [m]) (hn0 : 0 < n) (hm0 : 0 < m)
    (hra : RealElems σ a.nd) (hrv : RealElems σ v.nd) (mode : String) (len start : Nat)
    (hw : convWindow mode n m = some (len, start)) :
    convolve P a v mode = .ok ⟨[len], (List.range len).map fun i => convAt a.nd.toList v.nd.toList (start + i)⟩ := by
  have sn : size a.view.shape = n := by rw [hn]; simp [size]
  have sm : size v.view.shape = m := by rw [hm]; simp [size]
  unfold convolve
  rw [if_neg (by simp [hn, hm]), sizeOf_eq, sizeOf_eq, sn, sm, if_neg (by omega),
    convolveVals_eq hE (toVec_ne ha (by omega)) (toVec_ne hv (by omega)) (real_list ha hra) (real_list hv hrv) mode len start
      (by rw [toVec_length ha, toVec_length hv, sn, sm]; exact hw), toVec_eq ha, toVec_eq hv]

theorem convWindow_spec {mode : String} {n m : Nat} (hmode : mode ∈ ["full", "same", "valid"]) (hm0 : 0 < m)
    (h : m ≤ n ∨ mode = "full") : convWindow mode n m = some (convWindowSpec mode n m) := by
  unfold convWindow convWindowSpec
  simp only [List.mem_cons, List.not_mem_nil, or_false] at hmode
  rcases hmode with rfl | rfl | rfl
  · simp
  · simp at h
    simp
    omega
  · simp at h
    simp
    omega

/-- C47: the full convolution of two non-empty vectors, for every layout and for both algorithms, is the
product of the two polynomials; with exact arithmetic. -/
theorem C47_convolve_full [Field K] [CharZero K] {P : Planner K} {w : Nat → K} {σ : K →+* K} (hE : Exact P w σ) (a v : Held K)
    (ha : a.view.WF) (hv : v.view.WF) {n m : Nat} (hn : a.view.shape = [n]) (hm : v.view.shape = [m]) (hn0 : 0 < n) (hm0 : 0 < m)
    (hra : RealElems σ a.nd) (hrv : RealElems σ v.nd) :
    ∃ r, convolve P a v "full" = .ok r ∧ r.shape = [n + m - 1] ∧ r.data.length = n + m - 1 ∧
      polyLow r.data = polyLow a.nd.toList * polyLow v.nd.toList := by
  refine ⟨_, convolve_raw hE a v ha hv hn hm hn0 hm0 hra hrv "full" (n + m - 1) 0 (by simp [convWindow]), rfl, by simp, ?_⟩
  have e : (fun i => convAt a.nd.toList v.nd.toList (0 + i)) = (polyLow a.nd.toList * polyLow v.nd.toList).coeff := by
    funext k; rw [coeff_mul_convAt, zero_add]
  dsimp only
  rw [e]
  refine polyLow_map_range _ fun k hk => ?_
  rw [coeff_mul_convAt]
  have la : a.nd.toList.length = n := by rw [← toVec_eq ha, toVec_length ha, hn]; simp [size]
  have lv : v.nd.toList.length = m := by rw [← toVec_eq hv, toVec_length hv, hm]; simp [size]
  refine convAt_of_le (by omega) (fun h => ?_) fun h => ?_
  · rw [h] at la; simp at la; omega
  · rw [h] at lv; simp at lv; omega

/-- C47 (partial): every mode returns the documented window of the convolution sums.  Missing: `"same"` and
`"valid"` when the second operand is the longer one, see `C47_window_counterexample`, and empty operands. -/
theorem C47_convolve_partial [Field K] [CharZero K] {P : Planner K} {w : Nat → K} {σ : K →+* K} (hE : Exact P w σ) (a v : Held K)
    (ha : a.view.WF) (hv : v.view.WF) {n m : Nat} (hn : a.view.shape = [n]) (hm : v.view.shape = [m]) (hn0 : 0 < n) (hm0 : 0 < m)
    (hra : RealElems σ a.nd) (hrv : RealElems σ v.nd) (mode : String) (hmode : mode ∈ ["full", "same", "valid"])
    (h : m ≤ n ∨ mode = "full") :
    convolve P a v mode = .ok ⟨[(convWindowSpec mode n m).1],
      (List.range (convWindowSpec mode n m).1).map fun i => convAt a.nd.toList v.nd.toList ((convWindowSpec mode n m).2 + i)⟩ :=
  convolve_raw hE a v ha hv hn hm hn0 hm0 hra hrv mode _ _ (convWindow_spec hmode hm0 h)

/-- C47: full convolution is commutative. -/
theorem C47_convolve_comm [Field K] [CharZero K] {P : Planner K} {w : Nat → K} {σ : K →+* K} (hE : Exact P w σ) (a v : Held K)
    (ha : a.view.WF) (hv : v.view.WF) {n m : Nat} (hn : a.view.shape = [n]) (hm : v.view.shape = [m]) (hn0 : 0 < n) (hm0 : 0 < m)
    (hra : RealElems σ a.nd) (hrv : RealElems σ v.nd) : convolve P a v "full" = convolve P v a "full" := by
  rw [convolve_raw hE a v ha hv hn hm hn0 hm0 hra hrv "full" (n + m - 1) 0 (by simp [convWindow]),
    convolve_raw hE v a hv ha hm hn hm0 hn0 hrv hra "full" (m + n - 1) 0 (by simp [convWindow]), Nat.add_comm n m]
  congr 2
  refine List.map_congr_left fun k _ => ?_
  rw [← coeff_mul_convAt, ← coeff_mul_convAt, mul_comm]

/-- A new vector read back. -/
theorem held_vector [Zero K] {n : Nat} {X : List K} (hX : X.length = n) : (Held.of ⟨[n], X⟩ 8 0 : Held K).nd.toList = X := by
  have hrn : (⟨[n], X⟩ : Arr K).Is ⟨[n], fun idx => X.getD (idx.getD 0 0) 0⟩ := by
    refine ⟨rfl, ?_⟩
    rw [toList_one rfl]
    apply List.ext_getElem
    · simp [hX]
    · intro i h1 h2
      simp only [List.getElem_map, List.getElem_range, List.getD_cons_zero]
      exact (List.getD_eq_getElem _ _ h1).symm
  exact (Rumpy.Nd.Same.toList (hrn.denote (by decide) 0)).trans hrn.2.symm

theorem real_of_list [Field K] {σ : K →+* K} {h : Held K} (hr : ∀ x ∈ h.nd.toList, σ x = x) : RealElems σ h.nd :=
  fun idx hi => hr _ (List.mem_map.2 ⟨idx, mem_indices.2 hi, rfl⟩)

/-- C47: full convolution is associative: convolving the result of `a` and `b` with `c` is convolving `a` with the
result of `b` and `c`. -/
theorem C47_convolve_assoc [Field K] [CharZero K] {P : Planner K} {w : Nat → K} {σ : K →+* K} (hE : Exact P w σ) (a b c : Held K)
    (ha : a.view.WF) (hb : b.view.WF) (hc : c.view.WF) {n m l : Nat} (hn : a.view.shape = [n]) (hm : b.view.shape = [m])
    (hl : c.view.shape = [l]) (hn0 : 0 < n) (hm0 : 0 < m) (hl0 : 0 < l)
    (hra : RealElems σ a.nd) (hrb : RealElems σ b.nd) (hrc : RealElems σ c.nd) (r s : Arr K)
    (h1 : convolve P a b "full" = .ok r) (h2 : convolve P b c "full" = .ok s) :
    convolve P (Held.of r 8 0) c "full" = convolve P a (Held.of s 8 0) "full" := by
  obtain ⟨r', e1, s1, d1, p1⟩ := C47_convolve_full hE a b ha hb hn hm hn0 hm0 hra hrb
  obtain ⟨s', e2, s2, d2, p2⟩ := C47_convolve_full hE b c hb hc hm hl hm0 hl0 hrb hrc
  have er := h1.symm.trans e1
  have es := h2.symm.trans e2
  cases er
  cases es
  have realness : ∀ (x y : Held K), x.view.WF → y.view.WF → ∀ {n m : Nat}, x.view.shape = [n] → y.view.shape = [m] → 0 < n →
      0 < m → RealElems σ x.nd → RealElems σ y.nd → ∀ r, convolve P x y "full" = .ok r → ∀ z ∈ r.data, σ z = z := by
    intro x y hx hy n m hn hm hn0 hm0 hrx hry r hr z hz
    rw [convolve_raw hE x y hx hy hn hm hn0 hm0 hrx hry "full" (n + m - 1) 0 (by simp [convWindow])] at hr
    cases hr
    obtain ⟨k, _, rfl⟩ := List.mem_map.1 hz
    exact convAt_real σ hrx.list hry.list _
  have tr : (Held.of r 8 0).nd.toList = r.data := by
    obtain ⟨sh, d⟩ := r
    cases s1
    exact held_vector d1
  have ts : (Held.of s 8 0).nd.toList = s.data := by
    obtain ⟨sh, d⟩ := s
    cases s2
    exact held_vector d2
  have rr : RealElems σ (Held.of r 8 0).nd := real_of_list (by rw [tr]; exact realness a b ha hb hn hm hn0 hm0 hra hrb r h1)
  have rs : RealElems σ (Held.of s 8 0).nd := real_of_list (by rw [ts]; exact realness b c hb hc hm hl hm0 hl0 hrb hrc s h2)
  rw [convolve_raw hE (Held.of r 8 0) c (View.WF.fresh _ _) hc s1 hl (by omega) hl0 rr hrc "full" (n + m - 1 + l - 1) 0
      (by simp [convWindow]),
    convolve_raw hE a (Held.of s 8 0) ha (View.WF.fresh _ _) hn s2 hn0 (by omega) hra rs "full" (n + m - 1 + l - 1) 0
      (by simp [convWindow]; omega)]
  congr 2
  refine List.map_congr_left fun k _ => ?_
  rw [← coeff_mul_convAt, ← coeff_mul_convAt, tr, ts, p1, p2, mul_assoc]

/-- The reversed second operand turns convolution entries into correlation entries. -/
theorem convAt_reverse [Semiring K] (a v : List K) (hv : v ≠ []) (k : Nat) :
    convAt a v.reverse k = corrAt a v ((k : Int) - ((v.length : Int) - 1)) := by
  have h2 := List.length_pos_iff.2 hv
  rw [convAt_range, corrAt]
  set m := v.length with hm
  have lhs : (∑ j ∈ Finset.range (k + 1), a.getD (k - j) 0 * v.reverse.getD j 0)
      = ∑ j ∈ Finset.range m, (if j ≤ k then a.getD (k - j) 0 else 0) * v.reverse.getD j 0 := by
    have e1 : ∀ j ∈ Finset.range (k + 1), a.getD (k - j) 0 * v.reverse.getD j 0
        = (if j ≤ k then a.getD (k - j) 0 else 0) * v.reverse.getD j 0 := by
      intro j hj
      rw [Finset.mem_range] at hj
      rw [if_pos (by omega)]
    rw [Finset.sum_congr rfl e1]
    have z : ∀ j, j ∉ Finset.range m → (if j ≤ k then a.getD (k - j) 0 else 0) * v.reverse.getD j 0 = 0 := by
      intro j hj
      rw [Finset.mem_range] at hj
      rw [getD_of_le (l := v.reverse) (by simp; omega), mul_zero]
    have z' : ∀ j, j ∉ Finset.range (k + 1) → (if j ≤ k then a.getD (k - j) 0 else 0) * v.reverse.getD j 0 = 0 := by
      intro j hj
      rw [Finset.mem_range] at hj
      rw [if_neg (by omega), zero_mul]
    by_cases hkm : k + 1 ≤ m
    · exact Finset.sum_subset (Finset.range_subset_range.2 hkm) fun j _ hj => z' j hj
    · exact (Finset.sum_subset (Finset.range_subset_range.2 (by omega)) fun j _ hj => z j hj).symm
  rw [lhs]
  conv_rhs => rw [← Finset.sum_range_reflect]
  refine Finset.sum_congr rfl fun j hj => ?_
  rw [Finset.mem_range] at hj
  have er : v.reverse.getD j 0 = v.getD (m - 1 - j) 0 := by
    rw [List.getD_eq_getElem _ _ (by simpa using hj), List.getD_eq_getElem _ _ (by omega), List.getElem_reverse]
  rw [er]
  congr 1
  by_cases hjk : j ≤ k
  · rw [if_pos hjk, if_pos (by omega)]
    congr 1
    omega
  · rw [if_neg hjk, if_neg (by omega)]

/-- C47 (partial): `correlate` returns the documented window of the sums of `a[i + k] * v[i]`; entry 0 of the full result
is the lag `-(m - 1)`.  Missing: as for `convolve`, and empty operands. -/
theorem C47_correlate_partial [Field K] [CharZero K] {P : Planner K} {w : Nat → K} {σ : K →+* K} (hE : Exact P w σ) (a v : Held K)
    (ha : a.view.WF) (hv : v.view.WF) {n m : Nat} (hn : a.view.shape = [n]) (hm : v.view.shape = [m]) (hn0 : 0 < n) (hm0 : 0 < m)
    (hra : RealElems σ a.nd) (hrv : RealElems σ v.nd) (mode : String) (hmode : mode ∈ ["full", "same", "valid"])
    (h : m ≤ n ∨ mode = "full") :
    correlate P a v mode = .ok ⟨[(convWindowSpec mode n m).1],
      (List.range (convWindowSpec mode n m).1).map fun i =>
        corrAt a.nd.toList v.nd.toList ((((convWindowSpec mode n m).2 + i : Nat) : Int) - ((m : Int) - 1))⟩ := by
  have sn : size a.view.shape = n := by rw [hn]; simp [size]
  have sm : size v.view.shape = m := by rw [hm]; simp [size]
  have hvn : toVec v ≠ [] := toVec_ne hv (by omega)
  unfold correlate
  rw [if_neg (by simp [hn, hm]), sizeOf_eq, sizeOf_eq, sn, sm, if_neg (by omega),
    convolveVals_eq hE (toVec_ne ha (by omega)) (by simpa using hvn) (real_list ha hra)
      (fun x hx => real_list hv hrv x (by simpa using hx)) mode (convWindowSpec mode n m).1 (convWindowSpec mode n m).2
      (by rw [List.length_reverse, toVec_length ha, toVec_length hv, sn, sm]; exact convWindow_spec hmode hm0 h)]
  congr 2
  refine List.map_congr_left fun k _ => ?_
  rw [convAt_reverse _ _ hvn, toVec_length hv, sm, toVec_eq ha, toVec_eq hv]

/-- C47: both functions refuse operands that are not one-dimensional, and unknown modes. -/
theorem C47_convolve_error_iff [Field K] [CharZero K] {P : Planner K} {w : Nat → K} {σ : K →+* K} (hE : Exact P w σ) (a v : Held K)
    (ha : a.view.WF) (hv : v.view.WF) (hra : RealElems σ a.nd) (hrv : RealElems σ v.nd) (mode : String) :
    (convolve P a v mode = .error ↔ a.view.shape.length ≠ 1 ∨ v.view.shape.length ≠ 1 ∨ mode ∉ ["full", "same", "valid"]) ∧
      (correlate P a v mode = .error ↔ a.view.shape.length ≠ 1 ∨ v.view.shape.length ≠ 1 ∨ mode ∉ ["full", "same", "valid"]) := by
  by_cases h1 : a.view.shape.length ≠ 1 ∨ v.view.shape.length ≠ 1
  · have : a.view.shape.length ≠ 1 ∨ v.view.shape.length ≠ 1 ∨ mode ∉ ["full", "same", "valid"] := by tauto
    have e1 : convolve P a v mode = .error := by unfold convolve; rw [if_pos h1]
    have e2 : correlate P a v mode = .error := by unfold correlate; rw [if_pos h1]
    exact ⟨⟨fun _ => this, fun _ => e1⟩, ⟨fun _ => this, fun _ => e2⟩⟩
  · have hm : (a.view.shape.length ≠ 1 ∨ v.view.shape.length ≠ 1 ∨ mode ∉ ["full", "same", "valid"])
        ↔ mode ∉ ["full", "same", "valid"] := by tauto
    rw [hm]
    unfold convolve correlate
    rw [if_neg h1, if_neg h1, sizeOf_eq, sizeOf_eq]
    by_cases h0 : size a.view.shape = 0 ∨ size v.view.shape = 0
    · rw [if_pos h0, if_pos h0]
      unfold convolveEmpty correlateEmpty
      by_cases m1 : mode = "full"
      · subst m1; simp; split <;> simp
      by_cases m2 : mode = "same"
      · subst m2; simp
      by_cases m3 : mode = "valid"
      · subst m3; simp; split <;> simp
      simp [m1, m2, m3]
    · rw [if_neg h0, if_neg h0]
      push Not at h0
      have hvn : toVec v ≠ [] := toVec_ne hv (by omega)
      have han : toVec a ≠ [] := toVec_ne ha (by omega)
      have key : ∀ u : List K, u ≠ [] → (∀ x ∈ u, σ x = x) →
          (convolveVals P (toVec a) u mode = .error ↔ mode ∉ ["full", "same", "valid"]) := by
        intro u hu hur
        cases hcw : convWindow mode (toVec a).length u.length with
        | none =>
          have hno : mode ∉ ["full", "same", "valid"] := by
            unfold convWindow at hcw
            intro hmem
            simp only [List.mem_cons, List.not_mem_nil, or_false] at hmem
            rcases hmem with rfl | rfl | rfl <;> simp at hcw
          unfold convolveVals
          rw [convolveFull_eq hE han hu (real_list ha hra) hur]
          dsimp only
          rw [hcw]
          simp [hno]
        | some p =>
          rw [convolveVals_eq hE han hu (real_list ha hra) hur mode p.1 p.2 hcw]
          have hyes : mode ∈ ["full", "same", "valid"] := by
            by_contra hno
            simp only [List.mem_cons, List.not_mem_nil, or_false, not_or] at hno
            unfold convWindow at hcw
            rw [if_neg hno.1, if_neg hno.2.1, if_neg hno.2.2] at hcw
            cases hcw
          simp [hyes]
      exact ⟨key _ hvn (real_list hv hrv), key _ (by simpa using hvn) fun x hx => real_list hv hrv x (by simpa using hx)⟩

/-- C47 disagreement: when the second operand is longer, `"same"` has the length of the first operand (NumPy: of
the longer one), and `"valid"` has one entry (NumPy: `m - n + 1` entries). -/
theorem C47_window_counterexample :
    convWindow "same" 1 3 = some (1, 1) ∧ convWindowSpec "same" 1 3 = (3, 0) ∧
      convWindow "valid" 1 3 = some (1, 2) ∧ convWindowSpec "valid" 1 3 = (3, 0) := by
  decide

/-- C47 disagreement: two empty vectors make `convolve` panic (NumPy: an error), and `correlate` of
empty vectors succeeds. -/
theorem C47_empty_counterexample [Field K] (P : Planner K) (mem : Int → K) :
    convolve P ⟨mem, View.fresh [0] 8⟩ ⟨mem, View.fresh [0] 8⟩ "full" = .panic ∧
      correlate P ⟨mem, View.fresh [0] 8⟩ ⟨mem, View.fresh [0] 8⟩ "full" = .ok ⟨[0], []⟩ := by
  constructor <;> simp [convolve, correlate, convolveEmpty, correlateEmpty, View.fresh, Rumpy.sizeOf]

/-- Non-vacuity: the convolution of `[1, 2]` and `[0, 1, 3]` (rational entries). -/
example : convolveDirect [1, 2] [0, 1, 3] = some ([0, 1, 5, 6] : List ℚ) := by decide +kernel

example : convolveDirect [1, 2] [0, 1, 3] = some ((List.range 4).map (convAt ([1, 2] : List ℚ) [0, 1, 3])) := by decide +kernel

/-- Non-vacuity of the assumptions: over the complex numbers, real vectors of lengths 3 and 2. -/
example : ∃ (P : Planner ℂ) (w : Nat → ℂ) (σ : ℂ →+* ℂ) (a v : Held ℂ), Exact P w σ ∧ a.view.WF ∧ v.view.WF ∧
    a.view.shape = [3] ∧ v.view.shape = [2] ∧ RealElems σ a.nd ∧ RealElems σ v.nd := by
  obtain ⟨P, w, σ, h⟩ := exact_complex
  refine ⟨P, w, σ, ⟨fun _ => 2, View.fresh [3] 8⟩, ⟨fun _ => 5, View.fresh [2] 8⟩, h, View.WF.fresh _ _, View.WF.fresh _ _, rfl, rfl,
    fun idx _ => ?_, fun idx _ => ?_⟩
  · exact map_ofNat σ 2
  · exact map_ofNat σ 5

end Props
