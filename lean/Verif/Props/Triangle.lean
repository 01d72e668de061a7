import Verif.Lemmas.Create
import Verif.Lemmas.Cumulative
import Mathlib.Algebra.BigOperators.Group.List.Basic
/-!
# Property C50: triangles and diagonals

`Nd.mask n m p f zero` is the `n` by `m` matrix with entry `f i j` where `p i j` holds and `zero` elsewhere;
`Nd.lower`, `Nd.upper`, `Nd.onDiagonal` and `Nd.diagonalOf` (Verif/Spec/Create.lean) are built from it.
-/

namespace Props
open Rumpy Spec

/-- C50: `tri(n, m, k)` has ones exactly on and below diagonal `k`. -/
theorem C50_tri (n m : Nat) (k : Int) (one zero : α) :
    (tri n m k one zero).Is (Nd.mask n m (fun i j => (j : Int) ≤ i + k) (fun _ _ => one) zero) :=
  tri_is n m k one zero

example : tri 3 3 1 1 0 = ⟨[3, 3], [1, 1, 0, 1, 1, 1, 1, 1, 1]⟩ ∧ tri 2 3 (-1) 1 0 = ⟨[2, 3], [0, 0, 0, 1, 0, 0]⟩ := by
  decide

/-- C50: `eye(n)` is the identity matrix. -/
theorem C50_eye (n : Nat) (one zero : α) :
    (eye n one zero).Is (Nd.mask n n (fun i j => i = j) (fun _ _ => one) zero) := eye_is n one zero

example : eye 3 1 0 = ⟨[3, 3], [1, 0, 0, 0, 1, 0, 0, 0, 1]⟩ := by decide

/-- C50: `tril(a, k)` keeps the entries on and below diagonal `k` of a matrix of any layout. -/
theorem C50_tril (mem : Int → α) (v : View) (hw : v.WF) (k : Int) (zero : α) {n m : Nat} (hs : v.shape = [n, m]) :
    ∃ r, tril mem v k zero = some r ∧ r.Is ((v.denote mem).lower k zero) := by
  have := extractTriangle_eq mem hw k true zero hs
  rwa [if_pos rfl] at this

/-- C50: `triu(a, k)` keeps the entries on and above diagonal `k` of a matrix of any layout. -/
theorem C50_triu (mem : Int → α) (v : View) (hw : v.WF) (k : Int) (zero : α) {n m : Nat} (hs : v.shape = [n, m]) :
    ∃ r, triu mem v k zero = some r ∧ r.Is ((v.denote mem).upper k zero) := by
  have := extractTriangle_eq mem hw k false zero hs
  rwa [if_neg (by simp)] at this

/-- C50: `tril` and `triu` accept exactly the two-dimensional arrays. -/
theorem C50_triangle_succeeds_iff (mem : Int → α) (v : View) (k : Int) (zero : α) :
    ((tril mem v k zero).isSome ↔ v.shape.length = 2) ∧ ((triu mem v k zero).isSome ↔ v.shape.length = 2) := by
  have h : ∀ lower, (extractTriangle mem v k lower zero).isSome ↔ v.shape.length = 2 := by
    intro lower
    unfold extractTriangle
    rcases hs : v.shape with _ | ⟨n, _ | ⟨m, _ | ⟨x, s⟩⟩⟩
    · simp
    · simp
    · dsimp only
      by_cases h0 : n = 0 ∨ m = 0
      · rw [if_pos h0]; simp
      · rw [if_neg h0]
        split <;> simp
    · simp
  exact ⟨h true, h false⟩

/-- C50: `tril(a, k) + triu(a, k+1) = a`: every entry is in exactly one of the two. -/
theorem C50_triangles_partition [AddMonoid α] (mem : Int → α) (v : View) (hw : v.WF) (k : Int) {n m : Nat}
    (hs : v.shape = [n, m]) :
    ∃ l u, tril mem v k 0 = some l ∧ triu mem v (k + 1) 0 = some u ∧
      ∀ i j, i < n → j < m →
        (l.at? [i, j] = some ((v.denote mem).get [i, j]) ∧ u.at? [i, j] = some 0 ∨
          l.at? [i, j] = some 0 ∧ u.at? [i, j] = some ((v.denote mem).get [i, j])) ∧
        (l.at? [i, j]).bind (fun x => (u.at? [i, j]).map (x + ·)) = some ((v.denote mem).get [i, j]) := by
  obtain ⟨l, hl, hl'⟩ := C50_tril mem v hw k 0 hs
  obtain ⟨u, hu, hu'⟩ := C50_triu mem v hw (k + 1) 0 hs
  refine ⟨l, u, hl, hu, fun i j hi hj => ?_⟩
  have hd0 : (v.denote mem).shape = [n, m] := hs
  have hin : InShape [n, m] [i, j] := ⟨hi, hj, trivial⟩
  have h1 := hl'.at? (idx := [i, j]) (by show InShape [_, _] _; rw [hd0]; exact hin)
  have h2 := hu'.at? (idx := [i, j]) (by show InShape [_, _] _; rw [hd0]; exact hin)
  rw [h1, h2]
  show _ ∧ (some (if (j : Int) ≤ i + k then (v.denote mem).get [i, j] else 0)).bind _ = _
  by_cases h : (j : Int) ≤ i + k
  · have hl2 : ((v.denote mem).lower k 0).get [i, j] = (v.denote mem).get [i, j] := if_pos h
    have hu2 : ((v.denote mem).upper (k + 1) 0).get [i, j] = 0 :=
      if_neg (by simp only [List.getD_cons_zero, List.getD_cons_succ]; omega)
    rw [hl2, hu2, if_pos h]
    exact ⟨.inl ⟨rfl, rfl⟩, by simp⟩
  · have hl2 : ((v.denote mem).lower k 0).get [i, j] = 0 := if_neg h
    have hu2 : ((v.denote mem).upper (k + 1) 0).get [i, j] = (v.denote mem).get [i, j] :=
      if_pos (by simp only [List.getD_cons_zero, List.getD_cons_succ]; omega)
    rw [hl2, hu2, if_neg h]
    exact ⟨.inr ⟨rfl, rfl⟩, by simp⟩

example : tril (fun a => a + 1) (View.fresh [2, 3] 1) 0 0 = some ⟨[2, 3], [1, 0, 0, 4, 5, 0]⟩ ∧
    triu (fun a => a + 1) (View.fresh [2, 3] 1) 1 0 = some ⟨[2, 3], [0, 2, 3, 0, 0, 6]⟩ ∧
    tril (fun a => a + 1) (View.fresh [3, 2] 1).transpose 0 0 = some ⟨[2, 3], [1, 0, 0, 2, 4, 0]⟩ := by
  decide

/-- C50: `diagflat(v, k)` puts the elements, in row-major order, on diagonal `k` of a zero matrix. -/
theorem C50_diagflat (mem : Int → α) (v : View) (hw : v.WF) (k : Int) (zero : α) :
    (diagflat mem v k zero).Is (Nd.onDiagonal (v.denote mem).toList k zero) := diagflat_eq mem hw k zero

example : diagflat (fun a => a + 1) (View.fresh [2] 1) (-1) 0 = ⟨[3, 3], [0, 0, 0, 1, 0, 0, 0, 2, 0]⟩ := by decide

/-- C50, proved part: `diagonal` of a matrix is a view of its main diagonal.  Missing: arrays with more axes, for
which the remaining axes are lost (`C50_diagonal_counterexample`). -/
theorem C50_diagonal_partial (mem : Int → α) (v : View) (hw : v.WF) {n m : Nat} (hs : v.shape = [n, m]) :
    ∃ w, v.diagonal = some w ∧ w.WF ∧ (w.denote mem).Same (v.denote mem).diagonalOf := by
  have hl := hw.len
  rw [hs] at hl
  obtain ⟨s0, s1, hst⟩ : ∃ s0 s1, v.strides = [s0, s1] := List.length_eq_two.1 hl
  refine ⟨v.viewWith 0 [min n m] [s0 + s1], ?_, View.WF.viewWith rfl, ?_, ?_⟩
  · unfold View.diagonal
    rw [hs, hst]
  · show [min n m] = [min ((v.denote mem).shape.getD 0 0) _]
    rw [show (v.denote mem).shape = [n, m] from hs]
    rfl
  · intro idx hi
    obtain ⟨i, rfl, hi'⟩ : ∃ i, idx = [i] ∧ i < min n m := by
      match idx, hi with
      | [i], hi => exact ⟨i, rfl, hi.1⟩
    show mem (v.offset + 0 + byteOffset [i] [s0 + s1]) = mem (v.offset + byteOffset [i, i] v.strides)
    rw [hst]
    simp only [byteOffset]
    congr 1; ring

/-- C50: `diagonal` of an array with three axes drops the last axis: NumPy returns all `a[i, i, k]`, the code only
those with `k = 0`. -/
theorem C50_diagonal_counterexample : ∃ (v w : View), v.WF ∧ v.shape = [2, 2, 3] ∧ v.diagonal = some w ∧
    ((v.denote id).get [0, 0, 1]) ∉ (w.denote id).toList := by
  refine ⟨View.fresh [2, 2, 3] 8, (View.fresh [2, 2, 3] 8).viewWith 0 [2] [72], View.WF.fresh _ _, rfl, ?_, ?_⟩
  · decide
  · decide

/-- C50: `trace` is the sum of the main diagonal. -/
theorem C50_trace [AddMonoid α] (mem : Int → α) (v : View) {n m : Nat} (hs : v.shape = [n, m]) :
    traceOf mem v = some ((v.denote mem).diagonalOf.toList.sum) := by
  have hd : (v.denote mem).diagonalOf.toList = (List.range (min n m)).map fun i => mem (v.addr [i, i]) := by
    show (indices [min ((v.denote mem).shape.getD 0 0) ((v.denote mem).shape.getD 1 0)]).map _ = _
    rw [show (v.denote mem).shape = [n, m] from hs, indices_singleton, List.map_map]
    rfl
  unfold traceOf
  rw [hs, hd]
  dsimp only
  rw [List.sum_eq_foldl, List.foldl_map]

example : traceOf (fun a => a + 1) (View.fresh [2, 3] 1) = some 6 := by decide

/-- C50, proved part: `diag` of a float64 vector is the matrix with the vector on its diagonal, and `diag` of a
float64 matrix is its diagonal.  Missing: other dtypes, whose results are wrong (`C50_diag_counterexample`,
`C50_diag_in_bounds_iff`). -/
theorem C50_diag_partial (mem : Int → α) (v : View) (hw : v.WF) (zero : α) :
    (∀ n, v.shape = [n] → ∃ r, diagArr id mem v zero = some r ∧ r.Is (Nd.onDiagonal (v.denote mem).toList 0 zero)) ∧
    (∀ n m, v.shape = [n, m] → ∃ r, diagArr id mem v zero = some r ∧ r.Is (v.denote mem).diagonalOf) ∧
    (v.shape.length ≠ 1 → v.shape.length ≠ 2 → diagArr id mem v zero = none) := by
  refine ⟨fun n hs => ?_, fun n m hs => ?_, fun h1 h2 => ?_⟩
  · have hL : (v.denote mem).toList = (List.range n).map fun i => mem (v.addr [i]) := by
      show (indices v.shape).map _ = _
      rw [hs, indices_singleton, List.map_map]; rfl
    refine ⟨⟨[n, n], writes ((List.range n).map fun i => (i * n + i, mem (v.addr [i]))) (List.replicate (n * n) zero)⟩, ?_, ?_, ?_⟩
    · unfold diagArr diagStores
      rw [hs]
      simp only [Option.map_some, List.map_map, Function.comp_def, id_eq, sizeOf_eq, size, mul_one]
      simp
    · simp [Nd.onDiagonal, Nd.mask, hL]
    · unfold Nd.onDiagonal
      rw [show (v.denote mem).toList.length + Int.natAbs 0 = n by simp [hL]]
      apply writes_mask
      intro k y
      simp only [List.mem_map, List.mem_range, Prod.mk.injEq]
      constructor
      · rintro ⟨i, hi, rfl, rfl⟩
        refine ⟨i, i, hi, hi, by omega, rfl, ?_⟩
        rw [Nat.min_self, hL, List.getD_eq_getElem _ _ (by simpa using hi)]
        simp
      · rintro ⟨i, j, hi, hj, hp, rfl, rfl⟩
        have : j = i := by omega
        subst this
        refine ⟨j, hi, rfl, ?_⟩
        rw [Nat.min_self, hL, List.getD_eq_getElem _ _ (by simpa using hi)]
        simp
  · refine ⟨⟨[min n m], writes ((List.range (min n m)).map fun i => (i, mem (v.addr [i, i]))) (List.replicate (min n m) zero)⟩, ?_, ?_, ?_⟩
    · unfold diagArr diagStores
      rw [hs]
      simp only [Option.map_some, List.map_map, Function.comp_def, id_eq, sizeOf_eq, size, mul_one]
      simp
    · show [min n m] = [min ((v.denote mem).shape.getD 0 0) ((v.denote mem).shape.getD 1 0)]
      rw [show (v.denote mem).shape = [n, m] from hs]; rfl
    · have e := writes_indices [min n m] (fun idx => mem (v.addr [idx.getD 0 0, idx.getD 0 0])) (List.replicate (min n m) zero)
        (by simp [size])
      rw [indices_singleton, List.map_map, List.map_map] at e
      show writes _ _ = (indices [min ((v.denote mem).shape.getD 0 0) ((v.denote mem).shape.getD 1 0)]).map _
      rw [show (v.denote mem).shape = [n, m] from hs, show ([n, m].getD 0 0) = n from rfl, show ([n, m].getD 1 0) = m from rfl,
        indices_singleton, List.map_map]
      refine Eq.trans ?_ e
      congr 1
      apply List.map_congr_left
      intro i _
      simp [rank, size]
  · unfold diagArr diagStores
    rcases hs : v.shape with _ | ⟨n, _ | ⟨m, _ | ⟨x, s⟩⟩⟩
    · rfl
    · rw [hs] at h1; simp at h1
    · rw [hs] at h2; simp at h2
    · rfl

/-- C50: `diag` of `diag` gives back a float64 vector. -/
theorem C50_diag_diag (mem : Int → α) (v : View) (hw : v.WF) (zero : α) (item n : Nat) (hitem : 0 < item) (hs : v.shape = [n]) :
    ∃ r r', diagArr id mem v zero = some r ∧ diagArr id (r.mem item zero) (r.view item) zero = some r' ∧
      r'.Is (v.denote mem) := by
  obtain ⟨r, hr, hr'⟩ := (C50_diag_partial mem v hw zero).1 n hs
  have hL : (v.denote mem).toList = (List.range n).map fun i => mem (v.addr [i]) := by
    show (indices v.shape).map _ = _
    rw [hs, indices_singleton, List.map_map]; rfl
  have hlen : (v.denote mem).toList.length = n := by simp [hL]
  have hrs : r.shape = [n, n] := by rw [hr'.1]; simp [Nd.onDiagonal, Nd.mask, hlen]
  obtain ⟨r', hr1, hr2⟩ := (C50_diag_partial (r.mem item zero) (r.view item) (View.WF.fresh _ _) zero).2.1 n n hrs
  refine ⟨r, r', hr, hr1, hr2.congr ?_⟩
  have hden := hr'.denote hitem zero
  refine ⟨?_, fun idx hi => ?_⟩
  · show [min (r.shape.getD 0 0) (r.shape.getD 1 0)] = v.shape
    rw [hrs, hs]; simp
  · obtain ⟨i, rfl, hi'⟩ : ∃ i, idx = [i] ∧ i < n := by
      have h : InShape [min (r.shape.getD 0 0) (r.shape.getD 1 0)] idx := hi
      rw [hrs] at h
      match idx, h with
      | [i], h => exact ⟨i, rfl, by simpa using h.1⟩
    show (((r.view item).denote (r.mem item zero))).get [i, i] = mem (v.addr [i])
    rw [hden.2 [i, i] (by show InShape r.shape _; rw [hrs]; exact ⟨hi', hi', trivial⟩)]
    show (if (i : Int) = i + 0 then (v.denote mem).toList.getD (min i i) zero else zero) = _
    rw [if_pos (by omega), Nat.min_self, hL, List.getD_eq_getElem _ _ (by simpa using hi')]
    simp

example : diagArr id (fun a => a + 1) (View.fresh [2] 1) 0 = some ⟨[2, 2], [1, 0, 0, 2]⟩ := by decide

/-- C50: the stores of `diag` stay inside the result's buffer exactly when the item size is at least 8 (or there
is nothing to store): for float32, int32 and smaller dtypes it writes past the end of the allocation. -/
theorem C50_diag_in_bounds_iff (mem : Int → α) (v : View) (sh : List Nat) (st : List (Nat × α))
    (h : diagStores mem v = some (sh, st)) :
    (∀ s ∈ st, s.1 + 8 ≤ size sh * v.item) ↔ (8 ≤ v.item ∨ size sh = 0) := by
  unfold diagStores at h
  rcases hs : v.shape with _ | ⟨n, _ | ⟨m, _ | ⟨x, s⟩⟩⟩ <;> rw [hs] at h
  · simp at h
  · simp only [Option.some.injEq, Prod.mk.injEq] at h
    obtain ⟨rfl, rfl⟩ := h
    simp only [List.mem_map, List.mem_range, forall_exists_index, and_imp, forall_apply_eq_imp_iff₂, size, mul_one]
    constructor
    · intro h
      by_cases hn : n = 0
      · right; simp [hn]
      · left
        have h1 := h (n - 1) (by omega)
        obtain ⟨k, rfl⟩ : ∃ k, n = k + 1 := ⟨n - 1, by omega⟩
        simp only [Nat.add_sub_cancel] at h1
        have e : (k * (k + 1) + k) * 8 + 8 = (k + 1) * (k + 1) * 8 := by ring
        rw [e] at h1
        exact Nat.le_of_mul_le_mul_left h1 (by positivity)
    · rintro (h | h) i hi
      · have h1 : i * n + i + 1 ≤ n * n := by
          have : (i + 1) * n ≤ n * n := Nat.mul_le_mul_right _ hi
          have e : (i + 1) * n = i * n + n := by ring
          omega
        calc (i * n + i) * 8 + 8 = (i * n + i + 1) * 8 := by ring
          _ ≤ n * n * v.item := Nat.mul_le_mul h1 h
      · have : n = 0 := by simpa using h
        omega
  · simp only [Option.some.injEq, Prod.mk.injEq] at h
    obtain ⟨rfl, rfl⟩ := h
    simp only [List.mem_map, List.mem_range, forall_exists_index, and_imp, forall_apply_eq_imp_iff₂, size, mul_one]
    constructor
    · intro h
      by_cases hn : min n m = 0
      · right; exact hn
      · left
        have h1 := h (min n m - 1) (by omega)
        have e : (min n m - 1) * 8 + 8 = min n m * 8 := by omega
        rw [e] at h1
        exact Nat.le_of_mul_le_mul_left h1 (by omega)
    · rintro (h | h) i hi
      · calc i * 8 + 8 = (i + 1) * 8 := by ring
          _ ≤ min n m * v.item := Nat.mul_le_mul hi h
      · omega
  · simp at h

/-- C50: `diag` of the int64 vector `[1, 2]` holds the bit patterns of `1.0` and `2.0`. -/
theorem C50_diag_counterexample :
    diagArr (fun x => f64Bits x.toNat) (fun a => a + 1) (View.fresh [2] 1) 0
      = some ⟨[2, 2], [4607182418800017408, 0, 0, 4611686018427387904]⟩ := by
  decide +kernel

end Props
