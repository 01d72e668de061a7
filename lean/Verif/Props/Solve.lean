import Verif.Props.Linalg
import Verif.Props.Products
import Verif.Model.Create
import Mathlib.Tactic.Linarith
/-!
# C67 (continued): solve, tensorinv, tensorsolve
-/

namespace Props
open Spec Rumpy

variable {K : Type}

theorem byteOffset_pair (n m i j : Nat) : ((i : Int) * (cStrides [n, m] 8).getD 0 0 + (j : Int) * (cStrides [n, m] 8).getD 1 0) / 8 =
    ((i * m + j : Nat) : Int) := by
  have h : cStrides [n, m] 8 = [((m * 8 : Nat) : Int), 8] := by simp [cStrides, cStridesAux, Int.mul_comm]
  rw [h]
  simp only [List.getD_cons_zero, List.getD_cons_succ]
  push_cast
  rw [show (i : Int) * (m * 8) + j * 8 = (i * m + j) * 8 by ring]
  exact Int.mul_ediv_cancel _ (by omega)

theorem solveArr_is [Zero K] (raw : K → K) (n m : Nat) (x : Nat → Nat → K) :
    (solveArr raw n m x).Is (ofGrid n m fun i j => raw (x i j)) := by
  have : ((solveStores 8 n m x).map fun s => ((s.1 / 8).toNat, raw s.2)) =
      (List.range n).flatMap fun i => (List.range m).map fun j => (i * m + j, raw (x i j)) := by
    unfold solveStores
    dsimp only
    rw [List.map_flatMap]
    refine List.flatMap_congr fun i _ => ?_
    rw [List.map_map]
    refine List.map_congr_left fun j _ => ?_
    show ((_ / 8 : Int).toNat, _) = _
    rw [byteOffset_pair]
    rfl
  unfold solveArr
  rw [this]
  exact faerToRumpy_is n m fun i j => raw (x i j)

theorem solveArr_get [Zero K] (raw : K → K) (n m : Nat) (x : Nat → Nat → K) {i j : Nat} (hi : i < n) (hj : j < m) :
    (Held.of (solveArr raw n m x) 8 0).nd.get [i, j] = raw (x i j) :=
  ((solveArr_is raw n m x).denote (item := 8) (by omega) 0).2 [i, j] (inShape_pair hi hj)

/-- C67: with a matrix on the right, `solve` gives the matrix `X` of the same shape with `A X = B`, for an
invertible float64 `A`. -/
theorem C67_solve_matrix_partial [CommRing K]
    (solver : Nat → Nat → (Nat → Nat → K) → (Nat → Nat → K) → Nat → Nat → K) (a b : Held K) (n m : Nat)
    (ha : IsMat true a n n) (hb : b.view.shape = [n, m]) (hu : IsUnit (a.nd.matrix n n).det)
    (hs : ∀ A B, gridMatrix n n A = a.nd.matrix n n → gridMatrix n m B = b.nd.matrix n m → IsSolution n m A B (solver n m A B)) :
    ∃ r, solve id solver a b = some r ∧ r.view.shape = [n, m] ∧ a.nd.matrix n n * r.nd.matrix n m = b.nd.matrix n m := by
  have key := hs (fun i j => a.mem (a.view.addr [i, j])) (fun i j => b.mem (b.view.addr [i, j])) rfl rfl hu
  refine ⟨Held.of (solveArr id n m (solver n m (fun i j => a.mem (a.view.addr [i, j])) (fun i j => b.mem (b.view.addr [i, j])))) 8 0, ?_, rfl, ?_⟩
  · unfold solve
    rw [squareSize_eq ha.shape]
    have : solveRhs n b.view = some (b.view, false) := by unfold solveRhs; rw [hb]; simp
    rw [Option.bind_eq_bind, Option.bind_some, this, Option.bind_eq_bind, Option.bind_some]
    dsimp only
    rw [hb, List.getD_cons_succ, List.getD_cons_zero, if_neg (by simp)]
  · refine Eq.trans ?_ key
    congr 1
    funext i j
    exact solveArr_get id n m _ i.2 j.2

theorem column_get [Zero K] {b w : Held K} {n : Nat} (hbw : b.view.WF) (hb : b.view.shape = [n]) (hm : w.mem = b.mem)
    (he : b.view.expandDims 1 = some w.view) : w.view.shape = [n, 1] ∧ ∀ i < n, w.mem (w.view.addr [i, 0]) = b.nd.get [i] := by
  obtain ⟨v', h1, h2, h3⟩ := C10_expand_dims b.mem b.view hbw 1 (by rw [hb]; simp)
  rw [he] at h1
  have h1 := Option.some.inj h1
  subst h1
  have hsh : w.view.shape = [n, 1] := by
    have := h3.1
    simp only [Nd.expandDims] at this
    rw [show w.view.shape = _ from this, show (b.view.denote b.mem).shape = [n] from hb]
    rfl
  refine ⟨hsh, fun i hi => ?_⟩
  have := h3.2 [i, 0] (by rw [show (w.view.denote b.mem).shape = [n, 1] from hsh]; exact inShape_pair hi (by omega))
  rw [hm]
  exact this

theorem squeeze_column (n : Nat) : (View.fresh [n, 1] 8).squeeze = (View.fresh [n, 1] 8).viewWith 0 [n] [8] := by
  have hst : (View.fresh [n, 1] 8).strides = [8, 8] := by simp [View.fresh, cStrides, cStridesAux]
  by_cases h1 : n = 1
  · subst h1; decide
  · unfold View.squeeze
    rw [hst]
    simp [View.fresh, h1]

theorem squeeze_column_flags (n : Nat) : (View.fresh [n, 1] 8).squeeze.cFlag = true ∧ (View.fresh [n, 1] 8).squeeze.WF := by
  rw [squeeze_column]
  refine ⟨?_, View.WF.viewWith (by simp)⟩
  show isCContiguous [n] [8] 8 = true
  by_cases h0 : n = 0 <;> simp [isCContiguous, isCAux, contigStep, Contig.result, h0]

/-- C67: with a vector on the right, `solve` gives the vector `x` of the same length with `A x = b`, for an
invertible float64 `A`. -/
theorem C67_solve_vector_partial [CommRing K]
    (solver : Nat → Nat → (Nat → Nat → K) → (Nat → Nat → K) → Nat → Nat → K) (a b : Held K) (n : Nat)
    (ha : IsMat true a n n) (hbw : b.view.WF) (hb : b.view.shape = [n]) (hu : IsUnit (a.nd.matrix n n).det)
    (hs : ∀ A B, gridMatrix n n A = a.nd.matrix n n → (∀ i : Fin n, B i 0 = b.nd.vector n i) → IsSolution n 1 A B (solver n 1 A B)) :
    ∃ r, solve id solver a b = some r ∧ r.view.shape = [n] ∧ r.view.cFlag = true ∧ r.view.WF ∧
      (a.nd.matrix n n).mulVec (r.nd.vector n) = b.nd.vector n := by
  obtain ⟨v', he, -, -⟩ := C10_expand_dims b.mem b.view hbw 1 (by rw [hb]; simp)
  obtain ⟨hsh, hget⟩ := column_get (w := ⟨b.mem, v'⟩) hbw hb rfl he
  dsimp only at hsh hget
  have key := hs (fun i j => a.mem (a.view.addr [i, j])) (fun i j => b.mem (v'.addr [i, j])) rfl (fun i => hget i i.2) hu
  set x := solver n 1 (fun i j => a.mem (a.view.addr [i, j])) (fun i j => b.mem (v'.addr [i, j])) with hx
  have hr : solve id solver a b = some ⟨(Held.of (solveArr id n 1 x) 8 0).mem, (Held.of (solveArr id n 1 x) 8 0).view.squeeze⟩ := by
    unfold solve
    rw [squareSize_eq ha.shape]
    have : solveRhs n b.view = some (v', true) := by unfold solveRhs; rw [hb]; simp [he]
    rw [Option.bind_eq_bind, Option.bind_some, this, Option.bind_eq_bind, Option.bind_some]
    dsimp only
    rw [hsh, List.getD_cons_succ, List.getD_cons_zero, if_pos rfl]
  have hsq : ((Held.of (solveArr id n 1 x) 8 0).view.squeeze).shape = [n] ∧ ∀ i < n,
      (((Held.of (solveArr id n 1 x) 8 0).view.squeeze).denote (Held.of (solveArr id n 1 x) 8 0).mem).get [i] = x i 0 := by
    by_cases h1 : n = 1
    · subst h1
      obtain ⟨e1, e2⟩ := C10_squeeze_all_ones (Held.of (solveArr id 1 1 x) 8 0).mem (Held.of (solveArr id 1 1 x) 8 0).view
        (fun k hk => by
          have : k ∈ [1, 1] := hk
          simpa using this)
      refine ⟨e1, fun i hi => ?_⟩
      have : i = 0 := by omega
      subst this
      rw [e2]
      exact solveArr_get id 1 1 x (by omega) (by omega)
    · have := C10_squeeze_partial (Held.of (solveArr id n 1 x) 8 0).mem (Held.of (solveArr id n 1 x) 8 0).view (View.WF.fresh _ _)
        ⟨n, show n ∈ [n, 1] by simp, h1⟩
      have hsh : ((Held.of (solveArr id n 1 x) 8 0).view.squeeze).shape = [n] := by
        refine this.1.trans ?_
        show [n, 1].filter (· ≠ 1) = [n]
        simp [h1]
      refine ⟨hsh, fun i hi => ?_⟩
      rw [this.2 [i] (by
        rw [show ((Held.of (solveArr id n 1 x) 8 0).view.squeeze.denote (Held.of (solveArr id n 1 x) 8 0).mem).shape = [n] from hsh]
        simp [InShape, hi])]
      show (Held.of (solveArr id n 1 x) 8 0).nd.get (unsqueeze [n, 1] [i]) = _
      rw [show unsqueeze [n, 1] [i] = [i, 0] by simp [unsqueeze, h1]]
      exact solveArr_get id n 1 x hi (by omega)
  refine ⟨_, hr, hsq.1, ?_, ?_, ?_⟩
  · exact (squeeze_column_flags n).1
  · exact (squeeze_column_flags n).2
  · funext i
    have hi := congrFun (congrFun key i) 0
    rw [Matrix.mul_apply] at hi
    refine Eq.trans ?_ (hi.trans (hget i i.2))
    show (∑ k : Fin n, a.mem (a.view.addr [(i : Nat), (k : Nat)]) * _) = ∑ k : Fin n, a.mem (a.view.addr [(i : Nat), (k : Nat)]) * x k 0
    refine Finset.sum_congr rfl fun k _ => ?_
    congr 1
    exact hsq.2 k k.2

/-- C67: `solve` accepts exactly a square `A` and a right-hand side with as many rows. -/
theorem C67_solve_accepts [CommRing K] (raw : K → K)
    (solver : Nat → Nat → (Nat → Nat → K) → (Nat → Nat → K) → Nat → Nat → K) (a b : Held K) :
    (solve raw solver a b).isSome ↔ ∃ n, a.view.shape = [n, n] ∧ (b.view.shape = [n] ∨ ∃ m, b.view.shape = [n, m]) := by
  unfold solve
  cases hs : squareSize a.view with
  | none =>
    have : ¬∃ n, a.view.shape = [n, n] := by rw [← squareSize_isSome, hs]; simp
    constructor
    · intro h; simp at h
    · rintro ⟨n, h, -⟩; exact absurd ⟨n, h⟩ this
  | some n =>
    have hn : a.view.shape = [n, n] := by
      obtain ⟨k, hk⟩ := (squareSize_isSome a.view).1 (by rw [hs]; rfl)
      rw [squareSize_eq hk] at hs
      rw [← Option.some.inj hs, hk]
    have hr : (solveRhs n b.view).isSome ↔ b.view.shape = [n] ∨ ∃ m, b.view.shape = [n, m] := by
      unfold solveRhs
      split
      · rename_i k hb
        by_cases hk : k = n
        · subst hk
          obtain ⟨v', he⟩ : ∃ v', b.view.expandDims 1 = some v' := by
            unfold View.expandDims; rw [hb]; simp
          simp [he, hb]
        · simp [hk, hb]
      · rename_i k m hb
        by_cases hk : k = n
        · subst hk; simp [hb]
        · simp [hk, hb]
      · rename_i h1 h2
        simp only [Option.isSome_none, Bool.false_eq_true, false_iff, not_or, not_exists]
        exact ⟨h1 n, h2 n⟩
    rw [Option.bind_eq_bind, Option.bind_some]
    constructor
    · intro h
      refine ⟨n, hn, hr.1 ?_⟩
      cases hq : solveRhs n b.view with
      | none => rw [hq] at h; simp at h
      | some q => rfl
    · rintro ⟨k, hk, hb⟩
      have : k = n := by rw [hn] at hk; simpa using hk.symm
      subst this
      obtain ⟨q, hq⟩ := Option.isSome_iff_exists.1 (hr.2 hb)
      rw [hq]
      rfl

/-- Against C67: the result has the dtype of `A` but is filled with float64 bits.  Solving `1 x = 3` with int64
arguments gives the integer 4613937818241073152, which is how float64 writes 3. -/
theorem C67_solve_int_counterexample :
    let a : Held Int := ⟨fun _ => 1, View.fresh [1, 1] 8⟩
    let b : Held Int := ⟨fun _ => 3, View.fresh [1] 8⟩
    (solve (fun x => f64Bits x.toNat) (fun _ _ _ B => B) a b).map (fun r => r.nd.get [0]) = some 4613937818241073152 := by
  decide +kernel

/-- Against C67: with a float32 `A` the stores are 8 bytes wide at distances of 4 bytes, and the last one runs
past the end of the result. -/
theorem C67_solve_float32_counterexample (n m : Nat) (hn : 0 < n) (hm : 0 < m) (x : Nat → Nat → K) :
    ∃ s ∈ solveStores 4 n m x, s.1 + 8 > (n * m * 4 : Nat) := by
  refine ⟨(((n - 1 : Nat) : Int) * (cStrides [n, m] 4).getD 0 0 + ((m - 1 : Nat) : Int) * (cStrides [n, m] 4).getD 1 0, x (n - 1) (m - 1)), ?_, ?_⟩
  · unfold solveStores
    simp only [List.mem_flatMap, List.mem_map, List.mem_range]
    exact ⟨n - 1, by omega, m - 1, by omega, rfl⟩
  · have h : cStrides [n, m] 4 = [((m * 4 : Nat) : Int), 4] := by simp [cStrides, cStridesAux, Int.mul_comm]
    rw [h]
    simp only [List.getD_cons_zero, List.getD_cons_succ]
    obtain ⟨n', rfl⟩ : ∃ n', n = n' + 1 := ⟨n - 1, by omega⟩
    obtain ⟨m', rfl⟩ : ∃ m', m = m' + 1 := ⟨m - 1, by omega⟩
    simp only [Nat.add_sub_cancel]
    push_cast
    nlinarith

/-! ### Tensors -/

theorem reshape_pair {mem : Int → K} {v w : View} {s t : List Nat} (hw : v.WF) (hc : v.cFlag = true) (hs : v.shape = s ++ t)
    (h : v.reshape [size s, size t] = some w) {I J : List Nat} (hI : InShape s I) (hJ : InShape t J) :
    (w.denote mem).get [rank s I, rank t J] = (v.denote mem).get (I ++ J) := by
  obtain ⟨h1, h2, h3⟩ := C08_reshape_partial mem v w hw _ hc h
  refine denote_get_of_toList h3 ?_ ?_ ?_
  · rw [show (w.denote mem).shape = _ from h1]
    exact inShape_pair (rank_lt hI) (rank_lt hJ)
  · rw [show (v.denote mem).shape = _ from hs, inShape_append_iff hI.length_eq]
    exact ⟨hI, hJ⟩
  · rw [show (w.denote mem).shape = _ from h1, show (v.denote mem).shape = _ from hs, rank_two, rank_append _ _ hI.length_eq]

theorem reshape_unfolded {mem : Int → K} {v w : View} {s t : List Nat} (hw : v.WF) (hc : v.cFlag = true) (hs : v.shape = s ++ t)
    (h : v.reshape [size s, size t] = some w) : (w.denote mem).matrix (size s) (size t) = (v.denote mem).unfolded s t (size s) (size t) := by
  funext i j
  obtain ⟨I, hI, hi⟩ := exists_rank i.2
  obtain ⟨J, hJ, hj⟩ := exists_rank j.2
  show (w.denote mem).get [(i : Nat), (j : Nat)] = (v.denote mem).get ((indices s).getD i [] ++ (indices t).getD j [])
  rw [← hi, ← hj, reshape_pair hw hc hs h hI hJ]
  simp only [List.getD_eq_getElem?_getD, indices_getElem?_rank hI, indices_getElem?_rank hJ, Option.getD_some]

/-- A sum over the positions of a shape is a sum over their ranks. -/
theorem sum_indices_rank [AddCommMonoid K] (s : List Nat) (f : List Nat → K) (g : Nat → K) (h : ∀ I, InShape s I → f I = g (rank s I)) :
    ((indices s).map f).sum = ∑ k : Fin (size s), g k := by
  rw [← sum_map_range g (size s), ← map_rank_indices, List.map_map]
  congr 1
  refine List.map_congr_left fun I hI => ?_
  exact h I (mem_indices.1 hI)

/-- C67: `tensorinv` of a row-major array of shape `first ++ last` whose unfolding is an invertible square
matrix has shape `last ++ first` and is its inverse: contracting over `last` gives the identity on `first`,
contracting over `first` the identity on `last`. -/
theorem C67_tensorinv_partial [CommRing K] (inverse : Nat → (Nat → Nat → K) → Nat → Nat → K) (f64 : Bool) (a : Held K)
    (first last : List Nat) (p : Nat) (hw : a.view.WF) (hc : a.view.cFlag = true) (h8 : f64 = true → a.view.item = 8)
    (hs : a.view.shape = first ++ last) (h0 : first ≠ []) (hp : size first = p) (hq : size last = p)
    (hinv : ∀ M, gridMatrix p p M = a.nd.unfolded first last p p → IsInverse p M (inverse p M))
    (hu : IsUnit (a.nd.unfolded first last p p).det) :
    ∃ r, tensorinv inverse f64 a (some first.length) = some r ∧ r.nd.shape = last ++ first ∧
      (∀ I I', InShape first I → InShape first I' →
        ((indices last).map fun J => a.nd.get (I ++ J) * r.nd.get (J ++ I')).sum = if I = I' then 1 else 0) ∧
      ∀ J J', InShape last J → InShape last J' →
        ((indices first).map fun I => r.nd.get (J ++ I) * a.nd.get (I ++ J')).sum = if J = J' then 1 else 0 := by
  have hsz : size a.view.shape = size [size first, size last] := by rw [hs, size_append]; simp [size]
  obtain ⟨v, hv⟩ := Option.isSome_iff_exists.1 ((C08_reshape_succeeds_iff a.view [size first, size last]).2 ⟨hsz, Or.inl hc⟩)
  obtain ⟨hvs, hvw⟩ := reshape_shape_wf hv
  have hvm : (v.denote a.mem).matrix p p = a.nd.unfolded first last p p := by
    have := reshape_unfolded (mem := a.mem) hw hc hs hv
    rw [hp, hq] at this
    exact this
  have hget : ∀ I J, InShape first I → InShape last J → (v.denote a.mem).get [rank first I, rank last J] = a.nd.get (I ++ J) :=
    fun I J hI hJ => reshape_pair hw hc hs hv hI hJ
  have hm : IsMat f64 (⟨a.mem, v⟩ : Held K) p p := ⟨hvw, by rw [hvs, hp, hq], fun h => by rw [(reshape_facts hv).1]; exact h8 h⟩
  obtain ⟨x, X, hx, hX, hXs, hl, hr⟩ := C67_inv_partial inverse f64 ⟨a.mem, v⟩ p hm
    (fun M hM => hinv M (by rw [hM]; exact hvm)) (by rw [show (⟨a.mem, v⟩ : Held K).nd.matrix p p = _ from hvm]; exact hu)
  have hxs : x.shape = [p, p] := hX.1.trans hXs
  have hden := hX.denote (item := 8) (by omega) 0
  have hsz2 : size (Held.of x 8 0).view.shape = size (last ++ first) := by
    rw [show (Held.of x 8 0).view.shape = [p, p] from hxs, size_append, hp, hq]; simp [size]
  obtain ⟨w, hwv⟩ := Option.isSome_iff_exists.1 ((C08_reshape_succeeds_iff (Held.of x 8 0).view (last ++ first)).2 ⟨hsz2, Or.inl rfl⟩)
  obtain ⟨hws, -, hwl⟩ := C08_reshape_partial (Held.of x 8 0).mem (Held.of x 8 0).view w (View.WF.fresh _ _) _ rfl hwv
  have hrget : ∀ J I, InShape last J → InShape first I →
      (w.denote (Held.of x 8 0).mem).get (J ++ I) = X.get [rank last J, rank first I] := by
    intro J I hJ hI
    have hpair : InShape [p, p] [rank last J, rank first I] := inShape_pair (hq ▸ rank_lt hJ) (hp ▸ rank_lt hI)
    rw [← hden.2 [rank last J, rank first I] (by
      rw [show ((x.view 8).denote (x.mem 8 0)).shape = [p, p] from hxs]; exact hpair)]
    refine denote_get_of_toList hwl ?_ ?_ ?_
    · rw [show (w.denote _).shape = _ from hws, inShape_append_iff hJ.length_eq]; exact ⟨hJ, hI⟩
    · show InShape x.shape _
      rw [hxs]; exact hpair
    · rw [show (w.denote _).shape = _ from hws]
      show _ = rank x.shape _
      rw [hxs, rank_two, rank_append _ _ hJ.length_eq, hp]
  refine ⟨⟨(Held.of x 8 0).mem, w⟩, ?_, hws, ?_, ?_⟩
  · unfold tensorinv
    simp only [Option.getD_some]
    rw [hs, if_neg (by
      have : 0 < first.length := List.length_pos_iff.2 h0
      simp; omega), List.take_left, List.drop_left, sizeOf_eq, sizeOf_eq, if_neg (by rw [hp, hq]; simp), hv]
    show Option.bind (Rumpy.inv inverse f64 ⟨a.mem, v⟩) _ = _
    rw [hx, Option.bind_some]
    show Option.bind ((Held.of x 8 0).view.reshape (last ++ first)) _ = _
    rw [hwv]
    rfl
  · intro I I' hI hI'
    rw [sum_indices_rank last _ (fun k => (v.denote a.mem).get [rank first I, k] * X.get [k, rank first I'])
      (fun J hJ => by
        rw [hget I J hI hJ]
        congr 1
        exact hrget J I' hJ hI')]
    have := congrFun (congrFun hl ⟨rank first I, hp ▸ rank_lt hI⟩) ⟨rank first I', hp ▸ rank_lt hI'⟩
    rw [Matrix.mul_apply, Matrix.one_apply] at this
    subst hq
    refine this.trans ?_
    by_cases h : I = I'
    · subst h; simp
    · rw [if_neg h, if_neg]
      intro e
      exact h (rank_inj hI hI' (Fin.mk.inj e))
  · intro J J' hJ hJ'
    rw [sum_indices_rank first _ (fun k => X.get [rank last J, k] * (v.denote a.mem).get [k, rank last J'])
      (fun I hI => by
        rw [hget I J' hI hJ']
        congr 1
        exact hrget J I hJ hI)]
    have := congrFun (congrFun hr ⟨rank last J, hq ▸ rank_lt hJ⟩) ⟨rank last J', hq ▸ rank_lt hJ'⟩
    rw [Matrix.mul_apply, Matrix.one_apply] at this
    subst hp
    refine this.trans ?_
    by_cases h : J = J'
    · subst h; simp
    · rw [if_neg h, if_neg]
      intro e
      exact h (rank_inj hJ hJ' (Fin.mk.inj e))

/-- C67: `tensorsolve` of row-major arrays of shapes `sb ++ sx` and `sb` gives the array `x` of shape `sx` with
`A x = b`, contracting over `sx`. -/
theorem C67_tensorsolve_partial [CommRing K]
    (solver : Nat → Nat → (Nat → Nat → K) → (Nat → Nat → K) → Nat → Nat → K) (a b : Held K) (sb sx : List Nat) (p : Nat)
    (hw : a.view.WF) (hc : a.view.cFlag = true) (h8 : a.view.item = 8) (hbw : b.view.WF) (hbc : b.view.cFlag = true)
    (hs : a.view.shape = sb ++ sx) (hb : b.view.shape = sb) (hp : size sb = p) (hq : size sx = p)
    (hsol : ∀ A B, gridMatrix p p A = a.nd.unfolded sb sx p p → (∀ I, InShape sb I → B (rank sb I) 0 = b.nd.get I) →
      IsSolution p 1 A B (solver p 1 A B))
    (hu : IsUnit (a.nd.unfolded sb sx p p).det) :
    ∃ r, tensorsolve id solver a b none = some r ∧ r.nd.shape = sx ∧
      ∀ I, InShape sb I → ((indices sx).map fun J => a.nd.get (I ++ J) * r.nd.get J).sum = b.nd.get I := by
  have hsz : size a.view.shape = size [size sb, size sx] := by rw [hs, size_append]; simp [size]
  obtain ⟨v, hv⟩ := Option.isSome_iff_exists.1 ((C08_reshape_succeeds_iff a.view [size sb, size sx]).2 ⟨hsz, Or.inl hc⟩)
  obtain ⟨u, hu'⟩ := Option.isSome_iff_exists.1 ((C08_reshape_succeeds_iff b.view [size sb]).2 ⟨by rw [hb]; simp [size], Or.inl hbc⟩)
  obtain ⟨hvs, hvw⟩ := reshape_shape_wf hv
  obtain ⟨hus, huw⟩ := reshape_shape_wf hu'
  have hvm : (v.denote a.mem).matrix p p = a.nd.unfolded sb sx p p := by
    have := reshape_unfolded (mem := a.mem) hw hc hs hv
    rw [hp, hq] at this
    exact this
  have hbget : ∀ I, InShape sb I → (u.denote b.mem).get [rank sb I] = b.nd.get I := by
    intro I hI
    obtain ⟨-, -, hl⟩ := C08_reshape_partial b.mem b.view u hbw _ hbc hu'
    refine denote_get_of_toList hl ?_ ?_ ?_
    · rw [show (u.denote b.mem).shape = _ from hus]; simp [InShape, rank_lt hI]
    · rw [show (b.view.denote b.mem).shape = _ from hb]; exact hI
    · rw [show (u.denote b.mem).shape = _ from hus, show (b.view.denote b.mem).shape = _ from hb]; simp [rank, size]
  have hm : IsMat true (⟨a.mem, v⟩ : Held K) p p := ⟨hvw, by rw [hvs, hp, hq], fun _ => by rw [(reshape_facts hv).1]; exact h8⟩
  obtain ⟨x, hx, hxs, hxc, hxw, hxm⟩ := C67_solve_vector_partial solver ⟨a.mem, v⟩ ⟨b.mem, u⟩ p hm huw (by rw [hus, hp])
    (by rw [show (⟨a.mem, v⟩ : Held K).nd.matrix p p = _ from hvm]; exact hu)
    (fun A B hA hB => hsol A B (by rw [hA]; exact hvm) (fun I hI => by
      rw [← hbget I hI]
      exact hB ⟨rank sb I, hp ▸ rank_lt hI⟩))
  obtain ⟨w, hwv⟩ := Option.isSome_iff_exists.1 ((C08_reshape_succeeds_iff x.view sx).2 ⟨by rw [hxs, hq]; simp [size], Or.inl hxc⟩)
  obtain ⟨hws, -, hwl⟩ := C08_reshape_partial x.mem x.view w hxw _ hxc hwv
  refine ⟨⟨x.mem, w⟩, ?_, hws, ?_⟩
  · unfold tensorsolve tensorsolveCore
    dsimp only
    rw [hs, hb, if_neg (by simp), List.take_left, List.drop_left, if_neg (by simp), sizeOf_eq, sizeOf_eq,
      if_neg (by rw [hp, hq]; simp), hv]
    show Option.bind (b.view.reshape [size sb]) _ = _
    rw [hu', Option.bind_some]
    show Option.bind (solve id solver ⟨a.mem, v⟩ ⟨b.mem, u⟩) _ = _
    rw [hx, Option.bind_some]
    show Option.bind (x.view.reshape sx) _ = _
    rw [hwv]
    rfl
  · intro I hI
    rw [sum_indices_rank sx _ (fun k => (v.denote a.mem).get [rank sb I, k] * x.nd.get [k])
      (fun J hJ => by
        rw [reshape_pair hw hc hs hv hI hJ]
        congr 1
        refine denote_get_of_toList hwl ?_ ?_ ?_
        · rw [show (w.denote _).shape = _ from hws]; exact hJ
        · rw [show (x.view.denote _).shape = _ from hxs]; simp [InShape, hq ▸ rank_lt hJ]
        · rw [show (w.denote _).shape = _ from hws, show (x.view.denote _).shape = _ from hxs]; simp [rank, size])]
    rw [← hbget I hI]
    have := congrFun hxm ⟨rank sb I, hp ▸ rank_lt hI⟩
    subst hq
    exact this

/-- Against C67: the identity tensor of shape (2, 2, 4) held in column-major order.  The unfolding handed to the
library is in column-major order too, while its inverse is read back in row-major order, so the result is not the
inverse: contracting it with the input at `[0, 1]` gives 0 on the diagonal. -/
theorem C67_tensorinv_fortran_counterexample :
    let a : Held Int := ⟨fun k => if k ∈ [0, 6 * 8, 9 * 8, 15 * 8] then 1 else 0, ⟨0, [2, 2, 4], [8, 16, 32], 8, false, true⟩⟩
    let inverse : Nat → (Nat → Nat → Int) → Nat → Nat → Int := fun _ M i j => M j i
    a.view.WF ∧
    ((indices [2, 2, 4]).map a.nd.get = (indices [4, 4]).map fun i => if i.getD 0 0 = i.getD 1 0 then 1 else 0) ∧
    (∃ v, a.view.reshape [4, 4] = some v ∧ (v.denote a.mem).matrix 4 4 * gridMatrix 4 4 (inverse 4 fun i j => (v.denote a.mem).get [i, j]) = 1) ∧
    ((tensorinv inverse true a (some 2)).map fun r => ((indices [4]).map fun J => a.nd.get ([0, 1] ++ J) * r.nd.get (J ++ [0, 1])).sum) =
      some 0 := by
  refine ⟨⟨by decide, by decide, by decide⟩, by decide +kernel, ⟨_, rfl, by decide +kernel⟩, by decide +kernel⟩

/-- Against C67: NumPy's default is `ind=2`; here it is half the number of axes, so that the (2, 2, 4) tensors,
which have an inverse for `ind=2`, are refused without it. -/
theorem C67_tensorinv_default_counterexample (inverse : Nat → (Nat → Nat → Int) → Nat → Nat → Int) (mem : Int → Int) :
    tensorinv inverse true ⟨mem, View.fresh [2, 2, 4] 8⟩ none = none ∧
      (tensorinv inverse true ⟨mem, View.fresh [2, 2, 4] 8⟩ (some 2)).isSome := by
  constructor
  · unfold tensorinv
    dsimp only
    rw [if_neg (by decide), if_pos (by decide)]
  · rfl

/-- Against C67: moving axes with `axes=` makes the array non-contiguous, and it is then refused, whatever the
library would have answered. -/
theorem C67_tensorsolve_axes_counterexample (solver : Nat → Nat → (Nat → Nat → Int) → (Nat → Nat → Int) → Nat → Nat → Int)
    (mem mem' : Int → Int) :
    tensorsolve id solver ⟨mem, View.fresh [2, 2, 4] 8⟩ ⟨mem', View.fresh [4] 8⟩ (some [0, 1]) = none := by
  have h : ((View.fresh [2, 2, 4] 8).transposeAxes [2, 0, 1]).map (fun v => (v.shape, v.reshape [4, 4])) = some ([4, 2, 2], none) := by decide
  obtain ⟨v, hv, hv'⟩ := Option.map_eq_some_iff.1 h
  have h1 : v.shape = [4, 2, 2] := congrArg Prod.fst hv'
  have h2 : v.reshape [4, 4] = none := congrArg Prod.snd hv'
  unfold tensorsolve
  dsimp only
  rw [show ((List.range (View.fresh [2, 2, 4] 8).shape.length).filter fun i => !([0, 1] : List Nat).contains i) ++ [0, 1] = [2, 0, 1] from by decide,
    hv, Option.bind_eq_bind, Option.bind_some]
  unfold tensorsolveCore
  simp only [h1]
  show (if _ then none else if _ then none else if _ then none else Option.bind (v.reshape [4, 4]) _) = none
  rw [h2]
  rfl

/-! ### Concrete cases -/

/-- The matrix [[2, 1], [4, 5]], held in column-major order. -/
def exMat : Held ℚ := ⟨fun k => [2, 4, 1, 5].getD (k / 8).toNat 0, (View.fresh [2, 2] 8).transpose⟩

theorem exMat_eq : exMat.nd.matrix 2 2 = !![2, 1; 4, 5] := by decide +kernel

theorem exMat_isMat (f64 : Bool) : IsMat f64 exMat 2 2 := ⟨⟨by decide, by decide, by decide⟩, rfl, fun _ => rfl⟩

def exPlu : Plu ℚ := ⟨fun i j => [4, 5, 0, -3 / 2].getD (i * 2 + j) 0, 1⟩

theorem exPlu_is (M : Nat → Nat → ℚ) (h : gridMatrix 2 2 M = exMat.nd.matrix 2 2) : IsPlu 2 M exPlu := by
  refine ⟨Equiv.swap 0 1, !![1, 0; 1 / 2, 1], by decide +kernel,
    by intro i j h; fin_cases i <;> fin_cases j <;> simp at h ⊢, by decide +kernel, ?_, by decide +kernel⟩
  rw [h]
  decide +kernel

example : Rumpy.det (fun _ _ => exPlu) true exMat = some 6 := by
  have := C67_det (fun _ _ => exPlu) true exMat 2 (exMat_isMat true) exPlu_is
  rw [this, exMat_eq, Matrix.det_fin_two_of]
  norm_num

example : IsUnit (exMat.nd.matrix 2 2).det ∧
    ∀ M, gridMatrix 2 2 M = exMat.nd.matrix 2 2 → IsInverse 2 M (fun i j => [5 / 6, -1 / 6, -2 / 3, 1 / 3].getD (i * 2 + j) 0) := by
  refine ⟨by rw [exMat_eq, Matrix.det_fin_two_of]; norm_num, fun M hM _ => ?_⟩
  rw [hM]
  decide +kernel

example : ∀ A B, gridMatrix 2 2 A = exMat.nd.matrix 2 2 → (∀ i : Fin 2, B i 0 = ![(4 : ℚ), 14] i) →
    IsSolution 2 1 A B (fun i _ => [1, 2].getD i 0) := by
  intro A B hA hB _
  rw [hA]
  have : gridMatrix 2 1 B = !![4; 14] := by
    funext i j
    fin_cases j
    fin_cases i
    · exact hB 0
    · exact hB 1
  rw [this]
  decide +kernel

example : (solve id (fun _ _ _ _ i _ => [1, 2].getD i 0) exMat ⟨fun k => [4, 14].getD (k / 8).toNat 0, View.fresh [2] 8⟩).map
    (fun r => (r.view.shape, r.nd.toList)) = some ([2], [1, 2]) := by decide +kernel

/-- A matrix with a Pythagorean QR factorisation. -/
def exQr : Held ℚ := ⟨fun k => [3, 1, 4, 2].getD (k / 8).toNat 0, View.fresh [2, 2] 8⟩

example : IsMat true exQr 2 2 ∧ ∀ M, gridMatrix 2 2 M = exQr.nd.matrix 2 2 →
    IsThinQr 2 2 M (fun i j => [3 / 5, -4 / 5, 4 / 5, 3 / 5].getD (i * 2 + j) 0) (fun i j => [5, 11 / 5, 0, 2 / 5].getD (i * 2 + j) 0) := by
  refine ⟨⟨View.WF.fresh _ _, rfl, fun _ => rfl⟩, fun M hM => ⟨?_, by decide +kernel, ?_⟩⟩
  · rw [hM]; decide +kernel
  · intro i j hi hj
    have : i = 1 ∧ j = 0 := by omega
    rw [this.1, this.2]; rfl

/-- A matrix with a rational singular value decomposition: `U diag(10, 5) Vᵀ`. -/
def exSvd : Held ℚ := ⟨fun k => [6, 4, -8, 3].getD (k / 8).toNat 0, View.fresh [2, 2] 8⟩

def exSvdResult : Svd ℚ := ⟨fun i j => [3 / 5, 4 / 5, -4 / 5, 3 / 5].getD (i * 2 + j) 0, [10, 5], fun i j => [1, 0, 0, 1].getD (i * 2 + j) 0⟩

theorem exSvd_is : IsMat true exSvd 2 2 ∧ ∀ M, gridMatrix 2 2 M = exSvd.nd.matrix 2 2 → IsSvd 2 2 M exSvdResult := by
  refine ⟨⟨View.WF.fresh _ _, rfl, fun _ => rfl⟩, fun M hM => ⟨rfl, by decide +kernel, by decide +kernel, by decide +kernel, by decide +kernel, ?_⟩⟩
  rw [hM]
  decide +kernel

/-- The symmetric matrix [[4, 2], [2, 5]]. -/
def exSym : Held ℚ := ⟨fun k => [4, 2, 2, 5].getD (k / 8).toNat 0, View.fresh [2, 2] 8⟩

example : IsMat true exSym 2 2 ∧ (exSym.nd.matrix 2 2).transpose = exSym.nd.matrix 2 2 ∧
    ∀ M : Nat → Nat → ℚ, gridMatrix 2 2 M = exSym.nd.matrix 2 2 → IsCholesky 2 M (fun i j => [2, 0, 1, 2].getD (i * 2 + j) 0) := by
  refine ⟨⟨View.WF.fresh _ _, rfl, fun _ => rfl⟩, by decide +kernel, fun M hM => ⟨fun i j h1 h2 => ?_, by decide +kernel, ?_⟩⟩
  · have : i = 0 ∧ j = 1 := by omega
    rw [this.1, this.2]; rfl
  · rw [hM]; decide +kernel

/-- Eigenvalues 1 and 26 of [[10, 12], [12, 17]], with eigenvectors (-4/5, 3/5) and (3/5, 4/5). -/
example : ∀ M : Nat → Nat → ℚ, gridMatrix 2 2 M = !![10, 12; 12, 17] →
    IsEigh 2 M (fun i => [1, 26].getD i 0) (fun i j => [-4 / 5, 3 / 5, 3 / 5, 4 / 5].getD (i * 2 + j) 0) := by
  intro M hM
  refine ⟨fun i j h1 h2 => ?_, by decide +kernel, by rw [hM]; decide +kernel⟩
  have : (i = 0 ∧ j = 0) ∨ (i = 0 ∧ j = 1) ∨ (i = 1 ∧ j = 1) := by omega
  rcases this with h | h | h <;> rw [h.1, h.2] <;> decide +kernel

example : ((tensorinv (fun _ M i j => M j i) true (⟨fun k => if k ∈ [0, 5 * 8, 10 * 8, 15 * 8] then 1 else 0, View.fresh [2, 2, 4] 8⟩ : Held Int)
    (some 2)).map fun r => (r.view.shape, r.nd.get [1, 0, 1])) = some ([4, 2, 2], 1) := by decide +kernel

example : ((tensorsolve id (fun _ _ _ B => B) (⟨fun k => if k ∈ [0, 5 * 8, 10 * 8, 15 * 8] then 1 else 0, View.fresh [2, 2, 4] 8⟩ : Held Int)
    ⟨fun k => k / 8 + 1, View.fresh [2, 2] 8⟩ none).map fun r => (r.view.shape, r.nd.toList)) = some ([4], [1, 2, 3, 4]) := by decide +kernel

end Props
