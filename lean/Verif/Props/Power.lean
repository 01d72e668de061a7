import Verif.Props.Products
import Mathlib.Data.Matrix.Mul
/-!
# C42 (continued): matrix_power, multi_dot, kron, tensordot
-/

namespace Props
open Spec Rumpy

/-! ### matrix_power -/

/-- A float64 matrix of size `N × N` in any layout. -/
def IsSquare64 (h : Held α) (N : Nat) : Prop :=
  h.view.WF ∧ h.view.shape = [N, N] ∧ ∀ s ∈ h.view.strides, (8 : Int) ∣ s

/-- Its matrix. -/
def asMatrix (h : Held α) (N : Nat) : Matrix (Fin N) (Fin N) α := fun i j => h.nd.get [(i : Nat), (j : Nat)]

theorem matmul_square [Semiring α] {a b : Held α} {N : Nat} (ha : IsSquare64 a N) (hb : IsSquare64 b N) :
    ∃ r, matmul DType.f64 a b = some r ∧ IsSquare64 r N ∧ asMatrix r N = asMatrix a N * asMatrix b N := by
  obtain ⟨wa, sa, da⟩ := ha
  obtain ⟨wb, sb, db⟩ := hb
  obtain ⟨r, h1, h2, h3, h4⟩ := C42_matmul_partial DType.f64 (by decide) a b wa wb [] [] [] N N N sa sb (isBroadcastAll_same [])
    ⟨Or.inl rfl, by simp⟩ ⟨Or.inl rfl, by simp⟩ da db
  refine ⟨r, h1, ⟨h3, h2.1, h4⟩, ?_⟩
  funext i j
  have hij : InShape [N, N] [(i : Nat), (j : Nat)] := by simp [InShape, i.2, j.2]
  have := h2.2 [(i : Nat), (j : Nat)] (by rw [show r.nd.shape = [N, N] from h2.1]; exact hij)
  show r.nd.get _ = _
  rw [this, Matrix.mul_apply]
  refine Eq.trans (Fin.sum_univ_eq_sum_range (fun k => (a.nd.coreAt [] [N, N] ([(i : Nat), (j : Nat)].take 0)).get [[(i : Nat), (j : Nat)].getD 0 0, k] *
    (b.nd.coreAt [] [N, N] ([(i : Nat), (j : Nat)].take 0)).get [k, [(i : Nat), (j : Nat)].getD (0 + 1) 0]) N).symm ?_
  refine Finset.sum_congr rfl fun k _ => ?_
  simp only [List.take_zero, List.getD_cons_zero, List.getD_cons_succ, Nat.zero_add]
  rw [coreAt_none sa (by simp [InShape]) (by simp [InShape, i.2, k.2]), coreAt_none sb (by simp [InShape]) (by simp [InShape, j.2, k.2])]
  rfl

theorem powerLoop_eq [Semiring α] {N : Nat} : ∀ (fuel rem : Nat) (r c : Held α), rem ≤ fuel → IsSquare64 r N → IsSquare64 c N →
    ∃ x, powerLoop (matmul DType.f64) fuel rem r c = some x ∧ IsSquare64 x N ∧ asMatrix x N = asMatrix r N * asMatrix c N ^ rem
  | 0, rem, r, c, h, hr, hc => by
    have : rem = 0 := by omega
    subst this
    exact ⟨r, rfl, hr, by simp⟩
  | fuel + 1, rem, r, c, h, hr, hc => by
    rw [powerLoop]
    by_cases h0 : rem > 0
    · rw [if_pos h0]
      obtain ⟨r', e1, e2, e3⟩ : ∃ r', (if rem % 2 = 1 then matmul DType.f64 r c else some r) = some r' ∧ IsSquare64 r' N ∧
          asMatrix r' N = asMatrix r N * asMatrix c N ^ (rem % 2) := by
        by_cases h1 : rem % 2 = 1
        · rw [if_pos h1, h1, pow_one]
          exact matmul_square hr hc
        · rw [if_neg h1, show rem % 2 = 0 by omega]
          exact ⟨r, rfl, hr, by simp⟩
      obtain ⟨c', f1, f2, f3⟩ : ∃ c', (if rem / 2 > 0 then matmul DType.f64 c c else some c) = some c' ∧ IsSquare64 c' N ∧
          asMatrix c' N ^ (rem / 2) = asMatrix c N ^ (2 * (rem / 2)) := by
        by_cases h1 : rem / 2 > 0
        · rw [if_pos h1]
          obtain ⟨c', g1, g2, g3⟩ := matmul_square hc hc
          exact ⟨c', g1, g2, by rw [g3, pow_mul, pow_two]⟩
        · rw [if_neg h1, show rem / 2 = 0 by omega]
          exact ⟨c, rfl, hc, by simp⟩
      obtain ⟨x, g1, g2, g3⟩ := powerLoop_eq fuel (rem / 2) r' c' (by omega) e2 f2
      refine ⟨x, ?_, g2, ?_⟩
      · rw [e1, Option.bind_some]
        dsimp only
        rw [f1, Option.bind_some]
        exact g1
      · rw [g3, e3, f3, mul_assoc, ← pow_add]
        congr 2
        omega
    · rw [if_neg h0]
      have : rem = 0 := by omega
      subst this
      exact ⟨r, rfl, hr, by simp⟩

theorem eye_square [Semiring α] (N : Nat) : IsSquare64 (Held.of (eye N (1 : α) 0) 8 0) N ∧
    asMatrix (Held.of (eye N (1 : α) 0) 8 0) N = 1 := by
  refine ⟨⟨View.WF.fresh _ _, rfl, fun s hs => cStrides_dvd _ _ _ hs⟩, ?_⟩
  have h := (eye_is N (1 : α) 0).denote (item := 8) (by omega) 0
  funext i j
  have := h.2 [(i : Nat), (j : Nat)] (by show InShape [N, N] _; simp [InShape, i.2, j.2])
  refine Eq.trans this ?_
  rw [Matrix.one_apply]
  simp only [Nd.mask, List.getD_cons_zero, List.getD_cons_succ]
  by_cases hij : i = j
  · simp [hij]
  · rw [if_neg hij, if_neg (fun e => hij (Fin.ext e))]

/-- C42 (partial): `matrix_power` of a float64 matrix in any layout is the matrix power; a negative power is the power of the
inverse.  Missing: other dtypes, see `C42_matrix_power_counterexample`. -/
theorem C42_matrix_power_partial [Semiring α] (inv : Held α → Option (Held α)) (a : Held α) (N : Nat) (ha : IsSquare64 a N) (n : Int)
    (b : Held α) (hb : n < 0 → N ≠ 0 → inv a = some b ∧ IsSquare64 b N) :
    ∃ r, matrixPower inv a n = some r ∧ r.view.shape = [N, N] ∧
      asMatrix r N = if n < 0 then asMatrix b N ^ n.natAbs else asMatrix a N ^ n.natAbs := by
  obtain ⟨wa, sa, da⟩ := ha
  unfold matrixPower
  rw [if_neg (by rw [sa]; simp)]
  simp only [sa, List.getD_cons_zero, List.getD_cons_succ, ne_eq, not_true_eq_false, if_false]
  by_cases hN : N = 0
  · subst hN
    rw [if_pos rfl]
    refine ⟨_, rfl, rfl, ?_⟩
    funext i
    exact i.elim0
  · rw [if_neg hN]
    by_cases hn : n = 0
    · subst hn
      rw [if_pos rfl]
      exact ⟨_, rfl, rfl, by simp [(eye_square (α := α) N).2]⟩
    · rw [if_neg hn]
      obtain ⟨e1, e2⟩ := eye_square (α := α) N
      by_cases hneg : n < 0
      · obtain ⟨g1, g2⟩ := hb hneg hN
        obtain ⟨x, h1, h2, h3⟩ := powerLoop_eq (n.natAbs + 1) n.natAbs _ b (by omega) e1 g2
        rw [if_pos hneg, if_pos hneg, g1]
        refine ⟨x, h1, h2.2.1, ?_⟩
        rw [h3, e2, one_mul]
      · obtain ⟨x, h1, h2, h3⟩ := powerLoop_eq (n.natAbs + 1) n.natAbs _ a (by omega) e1 ⟨wa, sa, da⟩
        rw [if_neg hneg, if_neg hneg]
        refine ⟨x, h1, h2.2.1, ?_⟩
        rw [h3, e2, one_mul]

example : IsSquare64 (⟨fun x => x, (View.fresh [2, 2] 8).transpose⟩ : Held Int) 2 :=
  ⟨View.WF.viewWith rfl, rfl, by decide⟩

/-- C42: anything but a square matrix is refused. -/
theorem C42_matrix_power_rejects [Semiring α] (inv : Held α → Option (Held α)) (a : Held α) (n : Int)
    (h : ¬ ∃ N, a.view.shape = [N, N]) : matrixPower inv a n = none := by
  unfold matrixPower
  by_cases h2 : a.view.shape.length ≠ 2
  · rw [if_pos h2]
  · rw [if_neg h2]
    obtain ⟨x, y, hxy⟩ := List.length_eq_two.1 (not_not.1 h2)
    simp only [hxy, List.getD_cons_zero, List.getD_cons_succ]
    rw [if_pos]
    rintro rfl
    exact h ⟨_, hxy⟩

/-- C42, negated: the powers of an int64 matrix are wrong: the loop multiplies a float64 identity with the bytes of the
integers.  The first power of the matrix `[[1]]` has the value of the float64 with the bit pattern 1. -/
theorem C42_matrix_power_counterexample (inv : Held ℚ → Option (Held ℚ)) :
    let mem : Int → BitVec 64 := fun _ => 1
    let a : Held Int := ⟨fun x => (mem x).toInt, View.fresh [1, 1] 8⟩
    let read : Held ℚ := ⟨fun x => ieeeValue (mem x), View.fresh [1, 1] 8⟩
    a.nd.toList = [1] ∧ ∃ r, matrixPower inv read 1 = some r ∧ r.view.shape = [1, 1] ∧ r.nd.get [0, 0] ≠ 1 := by
  intro mem a read
  refine ⟨by decide, ?_⟩
  obtain ⟨r, h1, h2, h3⟩ := C42_matrix_power_partial inv read 1 ⟨View.WF.fresh _ _, rfl, by decide⟩ 1 read (by omega)
  refine ⟨r, h1, h2, fun e => ?_⟩
  have h4 := congrFun (congrFun h3 0) 0
  simp only [Int.natAbs_one, pow_one] at h4
  have h5 : r.nd.get [0, 0] = ieeeValue 1#64 := h4
  rw [e] at h5
  exact ieeeValue_one_ne h5.symm

/-! ### multi_dot -/

/-- The product of two matrices. -/
def _root_.Spec.Nd.mm [NonUnitalNonAssocSemiring α] (a b : Nd α) : Nd α :=
  ⟨[a.shape.getD 0 0, b.shape.getD 1 0], fun idx => ∑ k ∈ Finset.range (a.shape.getD 1 0), a.get [idx.getD 0 0, k] * b.get [k, idx.getD 1 0]⟩

/-- Matrices that can be multiplied one after the other. -/
def Chain : List (List Nat) → Prop
  | s :: t :: rest => s.getD 1 0 = t.getD 0 0 ∧ Chain (t :: rest)
  | _ => True

theorem mm_same [NonUnitalNonAssocSemiring α] {a b c : Nd α} {m n p : Nat} (ha : a.shape = [m, n]) (hc : c.shape = [n, p]) (h : a.Same b) :
    (a.mm c).Same (b.mm c) := by
  have hs := h.1
  refine ⟨by simp [Nd.mm, hs], fun idx hi => ?_⟩
  have hi : InShape [a.shape.getD 0 0, c.shape.getD 1 0] idx := hi
  rw [ha, hc] at hi
  obtain ⟨i, j, rfl, hi, hj⟩ := inShape_two hi
  simp only [Nd.mm, ← hs, ha, List.getD_cons_zero, List.getD_cons_succ]
  refine Finset.sum_congr rfl fun k hk => ?_
  rw [h.2 [i, k] (by rw [ha]; simpa [InShape] using ⟨hi, Finset.mem_range.1 hk⟩)]

theorem matmul_mm [NonUnitalNonAssocSemiring α] {out : DType} (hout : out ∈ productDTypes) {a b : Held α} {m n p : Nat}
    (wa : a.view.WF) (wb : b.view.WF) (sa : a.view.shape = [m, n]) (sb : b.view.shape = [n, p])
    (da : ∀ s ∈ a.view.strides, (Rumpy.DType.itemsize out : Int) ∣ s) (db : ∀ s ∈ b.view.strides, (Rumpy.DType.itemsize out : Int) ∣ s) :
    ∃ r, matmul out a b = some r ∧ r.view.WF ∧ r.view.shape = [m, p] ∧ (∀ s ∈ r.view.strides, (Rumpy.DType.itemsize out : Int) ∣ s) ∧
      r.nd.Same (a.nd.mm b.nd) := by
  obtain ⟨r, h1, h2, h3, h4⟩ := C42_matmul_partial out hout a b wa wb [] [] [] m n p sa sb (isBroadcastAll_same [])
    ⟨Or.inl rfl, by simp⟩ ⟨Or.inl rfl, by simp⟩ da db
  have sa' : a.nd.shape = [m, n] := sa
  have sb' : b.nd.shape = [n, p] := sb
  refine ⟨r, h1, h3, h2.1, h4, Nd.Same.trans h2 ⟨by simp [Nd.matmul, Nd.mm, sa', sb'], fun idx hi => ?_⟩⟩
  have hi : InShape ([] ++ [m, p]) idx := hi
  obtain ⟨i, j, rfl, hi, hj⟩ := inShape_two hi
  simp only [Nd.matmul, Nd.mm, sa', List.length_nil, List.take_zero, List.getD_cons_zero, List.getD_cons_succ, Nat.zero_add]
  refine Finset.sum_congr rfl fun k hk => ?_
  have hk := Finset.mem_range.1 hk
  rw [coreAt_none sa' (by simp [InShape]) (by simp [InShape, hi, hk]), coreAt_none sb' (by simp [InShape]) (by simp [InShape, hj, hk])]

/-- C42: `multi_dot` of a chain of matrices of the result dtype is their product from left to right. -/
theorem C42_multi_dot [NonUnitalNonAssocSemiring α] (out : DType) (hout : out ∈ productDTypes) (a : Held α) (rest : List (Held α))
    (hwf : ∀ h ∈ a :: rest, h.view.WF ∧ h.view.shape.length = 2 ∧ ∀ s ∈ h.view.strides, (Rumpy.DType.itemsize out : Int) ∣ s)
    (hch : Chain ((a :: rest).map fun h => h.view.shape)) :
    ∃ r, multiDot out (a :: rest) = some r ∧ r.nd.Same ((rest.map Held.nd).foldl Nd.mm a.nd) := by
  have gen : ∀ (rest : List (Held α)) (a : Held α) (x : Nd α), a.nd.Same x →
      (∀ h ∈ a :: rest, h.view.WF ∧ h.view.shape.length = 2 ∧ ∀ s ∈ h.view.strides, (Rumpy.DType.itemsize out : Int) ∣ s) →
      Chain ((a :: rest).map fun h => h.view.shape) →
      ∃ r, rest.foldlM (fun r x => matmul out r x) a = some r ∧ r.nd.Same ((rest.map Held.nd).foldl Nd.mm x) := by
    intro rest
    induction rest with
    | nil => intro a x hx _ _; exact ⟨a, rfl, hx⟩
    | cons b rest ih =>
      intro a x hx hwf hch
      obtain ⟨wa, la, da⟩ := hwf a (by simp)
      obtain ⟨wb, lb, db⟩ := hwf b (by simp)
      obtain ⟨m, n, sa⟩ := List.length_eq_two.1 la
      obtain ⟨n', p, sb⟩ := List.length_eq_two.1 lb
      simp only [List.map_cons, Chain, sa, sb, List.getD_cons_zero, List.getD_cons_succ] at hch
      obtain ⟨rfl, hch⟩ := hch
      obtain ⟨r, h1, h2, h3, h4, h5⟩ := matmul_mm hout wa wb sa sb da db
      obtain ⟨q, q1, q2⟩ := ih r (x.mm b.nd) (h5.trans (mm_same sa sb hx)) (by
        intro h hh
        rcases List.mem_cons.1 hh with rfl | hh
        · exact ⟨h2, by rw [h3]; rfl, h4⟩
        · exact hwf h (by simp [hh])) (by
        cases rest with
        | nil => exact trivial
        | cons c rest =>
          simp only [List.map_cons, Chain, List.getD_cons_succ, List.getD_cons_zero] at hch ⊢
          rw [h3]
          exact hch)
      refine ⟨q, ?_, q2⟩
      rw [List.foldlM_cons, h1]
      exact q1
  exact gen rest a a.nd (Nd.Same.refl _) hwf hch

example : Chain [[2, 3], [3, 4], [4, 1]] ∧ ¬ Chain [[2, 3], [2, 3]] := by simp [Chain]

end Props
