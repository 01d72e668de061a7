import Verif.Props.Power
/-!
# C42 (continued): kron and tensordot
-/

namespace Props
open Spec Rumpy

/-! ### kron -/

theorem mapM_of_some {f : β → Option γ} {g : β → γ} : ∀ {l : List β}, (∀ x ∈ l, f x = some (g x)) → l.mapM f = some (l.map g)
  | [], _ => rfl
  | x :: l, h => by
    rw [List.mapM_cons, h x (by simp), mapM_of_some (l := l) (fun y hy => h y (by simp [hy]))]
    rfl

theorem kron_stores2 [Mul α] {A B : Nat → Nat → α} {ra rb : Nat → Nat → Option α} {m n p q : Nat}
    (ha : ∀ i < m, ∀ j < n, ra i j = some (A i j)) (hb : ∀ k < p, ∀ l < q, rb k l = some (B k l)) (zero : α) :
    ∃ ws, ((List.range m).mapM fun i => (List.range n).mapM fun j => do
          let av ← ra i j
          (List.range p).mapM fun k => (List.range q).mapM fun l => do
            let bv ← rb k l
            some ((i * p + k) * (n * q) + (j * q + l), av * bv)) = some ws ∧
      writes ws.flatten.flatten.flatten (List.replicate (m * p * (n * q)) zero) =
        (indices [m * p, n * q]).map fun idx =>
          A (idx.getD 0 0 / p) (idx.getD 1 0 / q) * B (idx.getD 0 0 % p) (idx.getD 1 0 % q) := by
  refine ⟨(List.range m).map fun i => (List.range n).map fun j => (List.range p).map fun k => (List.range q).map fun l =>
    ((i * p + k) * (n * q) + (j * q + l), A i j * B k l), ?_, ?_⟩
  · refine mapM_of_some fun i hi => mapM_of_some fun j hj => ?_
    rw [ha i (List.mem_range.1 hi) j (List.mem_range.1 hj)]
    refine mapM_of_some fun k hk => mapM_of_some fun l hl => ?_
    rw [hb k (List.mem_range.1 hk) l (List.mem_range.1 hl)]
    rfl
  · apply writes_cover
    · simp [size]
    · intro w hw
      simp only [List.mem_flatten, List.mem_map, List.mem_range] at hw
      obtain ⟨l1, ⟨l2, ⟨l3, ⟨i, hi, rfl⟩, hw2⟩, hw1⟩, hw⟩ := hw
      obtain ⟨j, hj, rfl⟩ := List.mem_map.1 hw2
      obtain ⟨k, hk, rfl⟩ := List.mem_map.1 hw1
      obtain ⟨l, hl, rfl⟩ := List.mem_map.1 hw
      simp only [List.mem_range] at hj hk hl
      refine ⟨[i * p + k, j * q + l], ?_, ?_⟩
      · simp only [InShape, and_true]
        constructor
        · calc i * p + k < i * p + p := by omega
            _ = (i + 1) * p := by ring
            _ ≤ m * p := Nat.mul_le_mul_right _ hi
        · calc j * q + l < j * q + q := by omega
            _ = (j + 1) * q := by ring
            _ ≤ n * q := Nat.mul_le_mul_right _ hj
      · rw [rank_two]
        simp only [List.getD_cons_zero, List.getD_cons_succ]
        rw [Nat.add_comm (i * p), Nat.add_mul_div_right _ _ (by omega), Nat.div_eq_of_lt hk, Nat.zero_add, Nat.add_mul_mod_self_right, Nat.mod_eq_of_lt hk,
          Nat.add_comm (j * q), Nat.add_mul_div_right _ _ (by omega), Nat.div_eq_of_lt hl, Nat.zero_add, Nat.add_mul_mod_self_right, Nat.mod_eq_of_lt hl]
    · intro idx hi
      obtain ⟨x, y, rfl, hx, hy⟩ := inShape_two hi
      have hp : 0 < p := by
        rcases Nat.eq_zero_or_pos p with rfl | h
        · simp at hx
        · exact h
      have hq : 0 < q := by
        rcases Nat.eq_zero_or_pos q with rfl | h
        · simp at hy
        · exact h
      simp only [List.mem_flatten]
      refine ⟨_, ⟨_, ⟨_, List.mem_map.2 ⟨x / p, List.mem_range.2 ((Nat.div_lt_iff_lt_mul hp).2 hx), rfl⟩,
        List.mem_map.2 ⟨y / q, List.mem_range.2 ((Nat.div_lt_iff_lt_mul hq).2 hy), rfl⟩⟩,
        List.mem_map.2 ⟨x % p, List.mem_range.2 (Nat.mod_lt _ hp), rfl⟩⟩,
        List.mem_map.2 ⟨y % q, List.mem_range.2 (Nat.mod_lt _ hq), ?_⟩⟩
      rw [rank_two]
      simp only [List.getD_cons_zero, List.getD_cons_succ]
      rw [Nat.div_add_mod', Nat.div_add_mod']

theorem kron_stores1 [Mul α] {A B : Nat → α} {ra rb : Nat → Option α} {m p : Nat}
    (ha : ∀ i < m, ra i = some (A i)) (hb : ∀ k < p, rb k = some (B k)) (zero : α) :
    ∃ ws, ((List.range m).mapM fun i => do
          let av ← ra i
          (List.range p).mapM fun k => do
            let bv ← rb k
            some (i * p + k, av * bv)) = some ws ∧
      writes ws.flatten (List.replicate (m * p) zero) =
        (indices [m * p]).map fun idx => A (idx.getD 0 0 / p) * B (idx.getD 0 0 % p) := by
  refine ⟨(List.range m).map fun i => (List.range p).map fun k => (i * p + k, A i * B k), ?_, ?_⟩
  · refine mapM_of_some fun i hi => ?_
    rw [ha i (List.mem_range.1 hi)]
    refine mapM_of_some fun k hk => ?_
    rw [hb k (List.mem_range.1 hk)]
    rfl
  · apply writes_cover
    · simp [size]
    · intro w hw
      simp only [List.mem_flatten, List.mem_map, List.mem_range] at hw
      obtain ⟨l1, ⟨i, hi, rfl⟩, hw⟩ := hw
      obtain ⟨k, hk, rfl⟩ := List.mem_map.1 hw
      simp only [List.mem_range] at hk
      refine ⟨[i * p + k], ?_, ?_⟩
      · simp only [InShape, and_true]
        calc i * p + k < i * p + p := by omega
            _ = (i + 1) * p := by ring
            _ ≤ m * p := Nat.mul_le_mul_right _ hi
      · simp only [List.getD_cons_zero, rank, size, Nat.mul_one, Nat.add_zero]
        rw [Nat.add_comm (i * p), Nat.add_mul_div_right _ _ (by omega), Nat.div_eq_of_lt hk, Nat.zero_add, Nat.add_mul_mod_self_right, Nat.mod_eq_of_lt hk]
    · intro idx hi
      obtain ⟨x, rfl⟩ := List.length_eq_one_iff.1 hi.length_eq
      have hx := hi.1
      have hp : 0 < p := by
        rcases Nat.eq_zero_or_pos p with rfl | h
        · simp at hx
        · exact h
      simp only [List.mem_flatten]
      refine ⟨_, List.mem_map.2 ⟨x / p, List.mem_range.2 ((Nat.div_lt_iff_lt_mul hp).2 hx), rfl⟩,
        List.mem_map.2 ⟨x % p, List.mem_range.2 (Nat.mod_lt _ hp), ?_⟩⟩
      simp only [List.getD_cons_zero, rank, size, Nat.mul_one, Nat.add_zero]
      rw [Nat.div_add_mod']

/-- Reading element `[i, j]` of an operand of `kron`, padded to two axes. -/
theorem kron_read {h : Held α} {quick : Bool} (hw : h.view.WF) (hq : quick = true → h.view.cFlag = true)
    (hr : h.view.shape.length = 2 ∨ (h.view.shape.length = 1 ∧ quick = true)) :
    ∀ i < (padShape h.view.shape 2).getD 0 0, ∀ j < (padShape h.view.shape 2).getD 1 0,
      (if quick = true then some (h.mem (h.view.offset + (i * (padShape h.view.shape 2).getD 1 0 + j : Nat) * h.view.item)) else h.at? [i, j])
        = some ((h.nd.padTo 2).get [i, j]) := by
  intro i hi j hj
  rcases hr with hl | ⟨hl, hq'⟩
  · obtain ⟨m, n, hs⟩ := List.length_eq_two.1 hl
    simp only [hs, padShape, List.length_cons, List.length_nil, Nat.zero_add, Nat.reduceAdd, Nat.sub_self, List.replicate_zero, List.nil_append,
      List.getD_cons_zero, List.getD_cons_succ] at hi hj ⊢
    have hin : InShape h.view.shape [i, j] := by rw [hs]; simp [InShape, hi, hj]
    have e : (h.nd.padTo 2).get [i, j] = h.mem (h.view.addr [i, j]) := by
      simp [Nd.padTo, Held.nd, View.denote, hs]
    rw [e]
    cases hqv : quick with
    | false =>
      simp only [Bool.false_eq_true, if_false]
      unfold Held.at?
      rw [if_pos hin]
    | true =>
      simp only [if_true]
      rw [cFlag_addr hw (hq hqv) hin, hs, rank_two]
  · obtain ⟨n, hs⟩ := List.length_eq_one_iff.1 hl
    rw [if_pos hq']
    simp only [hs, padShape, List.length_cons, List.length_nil, Nat.zero_add, List.replicate_one, List.singleton_append,
      List.getD_cons_zero, List.getD_cons_succ, Nat.reduceSub] at hi hj ⊢
    have hi0 : i = 0 := by omega
    subst hi0
    have hin : InShape h.view.shape [j] := by rw [hs]; simp [InShape, hj]
    have e : (h.nd.padTo 2).get [0, j] = h.mem (h.view.addr [j]) := by
      simp [Nd.padTo, Held.nd, View.denote, hs]
    rw [e, cFlag_addr hw (hq hq') hin, hs]
    simp [rank, size]

/-- C42 (partial): `kron` of arrays of rank 1 or 2 is the Kronecker product of the operands padded to the same rank.  Missing: operands of
different ranks that are not contiguous float64 (`C42_kron_counterexample`), and ranks above 2, which are refused. -/
theorem C42_kron_partial [Mul α] (fast : Bool) (a b : Held α) (zero : α) (ha : a.view.WF) (hb : b.view.WF)
    (ra : a.view.shape.length = 1 ∨ a.view.shape.length = 2) (rb : b.view.shape.length = 1 ∨ b.view.shape.length = 2)
    (hr : a.view.shape.length = b.view.shape.length ∨ (fast = true ∧ a.view.cFlag = true ∧ b.view.cFlag = true)) :
    ∃ arr, kron fast a b zero = some (some arr) ∧
      arr.Is ((a.nd.padTo (max a.nd.shape.length b.nd.shape.length)).kron (b.nd.padTo (max a.nd.shape.length b.nd.shape.length))) := by
  unfold kron
  rw [if_neg (by omega)]
  dsimp only
  have hquick : (fast && a.view.cFlag && b.view.cFlag) = true → a.view.cFlag = true ∧ b.view.cFlag = true := by
    intro h
    simp only [Bool.and_eq_true] at h
    exact ⟨h.1.2, h.2⟩
  have hquick' : a.view.shape.length ≠ b.view.shape.length → (fast && a.view.cFlag && b.view.cFlag) = true := by
    intro h
    obtain ⟨h1, h2, h3⟩ := hr.resolve_left h
    simp [h1, h2, h3]
  generalize (fast && a.view.cFlag && b.view.cFlag) = quick at hquick hquick' ⊢
  by_cases hd : max a.view.shape.length b.view.shape.length = 2
  · have hd' : max a.nd.shape.length b.nd.shape.length = 2 := hd
    rw [if_pos hd, hd, hd']
    obtain ⟨m, n, hpa⟩ : ∃ m n, padShape a.view.shape 2 = [m, n] :=
      List.length_eq_two.1 (by unfold padShape; rw [List.length_append, List.length_replicate]; omega)
    obtain ⟨p, q, hpb⟩ : ∃ p q, padShape b.view.shape 2 = [p, q] :=
      List.length_eq_two.1 (by unfold padShape; rw [List.length_append, List.length_replicate]; omega)
    have r1 := kron_read (h := a) ha (fun h => (hquick h).1) (by
      rcases ra with h | h
      · exact Or.inr ⟨h, hquick' (by omega)⟩
      · exact Or.inl h)
    have r2 := kron_read (h := b) hb (fun h => (hquick h).2) (by
      rcases rb with h | h
      · exact Or.inr ⟨h, hquick' (by omega)⟩
      · exact Or.inl h)
    rw [hpa] at r1 ⊢
    rw [hpb] at r2 ⊢
    simp only [List.getD_cons_zero, List.getD_cons_succ, List.zipWith_cons_cons, List.zipWith_nil_left, sizeOf_eq, size, Nat.mul_one] at r1 r2 ⊢
    obtain ⟨ws, h1, h2⟩ := kron_stores2 (A := fun i j => (a.nd.padTo 2).get [i, j]) (B := fun i j => (b.nd.padTo 2).get [i, j]) r1 r2 zero
    refine ⟨⟨[m * p, n * q], writes ws.flatten.flatten.flatten (List.replicate (m * p * (n * q)) zero)⟩, ?_, ?_⟩
    · congr 1
      rw [h1]
      rfl
    · have sA : (a.nd.padTo 2).shape = [m, n] := hpa
      have sB : (b.nd.padTo 2).shape = [p, q] := hpb
      refine ⟨by simp [Nd.kron, sA, sB], ?_⟩
      dsimp only
      rw [h2]
      unfold Nd.toList Nd.kron
      simp only [sA, sB, List.zipWith_cons_cons, List.zipWith_nil_left]
      refine List.map_congr_left fun idx hi => ?_
      obtain ⟨x, y, rfl, hx, hy⟩ := inShape_two (mem_indices.1 hi)
      simp
  · rw [if_neg hd, if_pos (by omega)]
    have hd1 : max a.view.shape.length b.view.shape.length = 1 := by omega
    have hd' : max a.nd.shape.length b.nd.shape.length = 1 := hd1
    rw [hd1, hd']
    obtain ⟨m, sa⟩ := List.length_eq_one_iff.1 (show a.view.shape.length = 1 by omega)
    obtain ⟨p, sb⟩ := List.length_eq_one_iff.1 (show b.view.shape.length = 1 by omega)
    have hpa : padShape a.view.shape 1 = [m] := by simp [padShape, sa]
    have hpb : padShape b.view.shape 1 = [p] := by simp [padShape, sb]
    have gen : ∀ (h : Held α) (n : Nat), h.view.WF → h.view.shape = [n] → (quick = true → h.view.cFlag = true) → ∀ i < n,
        (if quick = true then some (h.mem (h.view.offset + (i : Nat) * h.view.item)) else h.at? [i]) = some ((h.nd.padTo 1).get [i]) := by
      intro h n hw hs hq i hi
      have hin : InShape h.view.shape [i] := by rw [hs]; simp [InShape, hi]
      have e : (h.nd.padTo 1).get [i] = h.mem (h.view.addr [i]) := by
        simp [Nd.padTo, Held.nd, View.denote, hs]
      rw [e]
      cases hqv : quick with
      | false =>
        simp only [Bool.false_eq_true, if_false]
        unfold Held.at?
        rw [if_pos hin]
      | true =>
        simp only [if_true]
        rw [cFlag_addr hw (hq hqv) hin, hs]
        simp [rank, size]
    have r1 := gen a m ha sa (fun h => (hquick h).1)
    have r2 := gen b p hb sb (fun h => (hquick h).2)
    rw [hpa, hpb]
    simp only [List.getD_cons_zero, List.zipWith_cons_cons, List.zipWith_nil_left, sizeOf_eq, size, Nat.mul_one]
    obtain ⟨ws, h1, h2⟩ := kron_stores1 (A := fun i => (a.nd.padTo 1).get [i]) (B := fun i => (b.nd.padTo 1).get [i]) r1 r2 zero
    refine ⟨⟨[m * p], writes ws.flatten (List.replicate (m * p) zero)⟩, ?_, ?_⟩
    · congr 1
      rw [h1]
      rfl
    · have sA : (a.nd.padTo 1).shape = [m] := hpa
      have sB : (b.nd.padTo 1).shape = [p] := hpb
      refine ⟨by simp [Nd.kron, sA, sB], ?_⟩
      dsimp only
      rw [h2]
      unfold Nd.toList Nd.kron
      simp only [sA, sB, List.zipWith_cons_cons, List.zipWith_nil_left]
      refine List.map_congr_left fun idx hi => ?_
      obtain ⟨x, rfl⟩ := List.length_eq_one_iff.1 (mem_indices.1 hi).length_eq
      simp

example : ((kron true (Held.of ⟨[2], [1, 2]⟩ 8 0 : Held Int) (Held.of ⟨[2, 2], [1, 10, 100, 1000]⟩ 8 0) 0).map
    fun r => r.map fun x => (x.shape, x.data)) = some (some ([2, 4], [1, 10, 2, 20, 100, 1000, 200, 2000])) := by decide +kernel

/-- C42: `kron` is refused exactly for ranks below 1 or above 2. -/
theorem C42_kron_refused_iff [Mul α] (fast : Bool) (a b : Held α) (zero : α) :
    kron fast a b zero = none ↔ a.view.shape.length < 1 ∨ b.view.shape.length < 1 ∨ 2 < max a.view.shape.length b.view.shape.length := by
  unfold kron
  by_cases h : a.view.shape.length < 1 ∨ b.view.shape.length < 1
  · rw [if_pos h]
    simp only [true_iff]
    omega
  · rw [if_neg h]
    dsimp only
    by_cases h2 : max a.view.shape.length b.view.shape.length = 2
    · rw [if_pos h2]
      simp only [reduceCtorEq, false_iff]
      omega
    · rw [if_neg h2]
      by_cases h1 : max a.view.shape.length b.view.shape.length = 1
      · rw [if_pos h1]
        simp only [reduceCtorEq, false_iff]
        omega
      · rw [if_neg h1]
        simp only [true_iff]
        omega

/-- C42, negated: `kron` of an int64 vector and matrix panics. -/
theorem C42_kron_counterexample :
    kron false (Held.of ⟨[2], [1, 2]⟩ 8 0 : Held Int) (Held.of ⟨[1, 1], [5]⟩ 8 0) 0 = some none := by decide +kernel

/-! ### tensordot -/

theorem dotLoop_eq [NonUnitalNonAssocSemiring α] {a b : Held α} {ia ib : Nat → List Nat} {n : Nat}
    (ha : ∀ k < n, InShape a.view.shape (ia k)) (hb : ∀ k < n, InShape b.view.shape (ib k)) :
    ((List.range n).foldlM (fun (s : α) i => do
      let x ← a.at? (ia i)
      let y ← b.at? (ib i)
      some (s + x * y)) 0) = some (∑ k ∈ Finset.range n, a.nd.get (ia k) * b.nd.get (ib k)) := by
  rw [← foldl_add_range]
  have gen : ∀ (l : List Nat) (z : α), (∀ k ∈ l, k < n) → (l.foldlM (fun (s : α) i => do
      let x ← a.at? (ia i)
      let y ← b.at? (ib i)
      some (s + x * y)) z) = some (l.foldl (fun s k => s + a.nd.get (ia k) * b.nd.get (ib k)) z) := by
    intro l
    induction l with
    | nil => intro z _; rfl
    | cons k l ih =>
      intro z hl
      have hk := hl k (by simp)
      rw [List.foldlM_cons, List.foldl_cons]
      unfold Held.at?
      rw [if_pos (ha k hk), if_pos (hb k hk)]
      simp only [Option.bind_eq_bind, Option.bind_some]
      exact ih _ fun j hj => hl j (by simp [hj])
  exact gen _ _ fun k hk => List.mem_range.1 hk

theorem writes_vector {n : Nat} (f : Nat → α) (zero : α) :
    writes ((List.range n).map fun i => (i, f i)) (List.replicate n zero) = (List.range n).map f := by
  have h := writes_indices [n] (fun idx => f (idx.getD 0 0)) (List.replicate n zero) (by simp [size])
  rw [indices_singleton, List.map_map, List.map_map] at h
  simpa [Function.comp_def, rank, size] using h

/-- C42 (partial): `tensordot` over the last axis of `a` and the first of `b`, for ranks 2 and 2, 2 and 1, 1 and 2.
Missing: all other axes and ranks, which are refused (`C42_tensordot_refused`), and scalar results. -/
theorem C42_tensordot_partial [NonUnitalNonAssocSemiring α] (a b : Held α) (ha : a.view.WF) (hb : b.view.WF)
    (da : ∀ s ∈ a.view.strides, (8 : Int) ∣ s) (db : ∀ s ∈ b.view.strides, (8 : Int) ∣ s) (n : Nat)
    (hs : (∃ m p, a.view.shape = [m, n] ∧ b.view.shape = [n, p]) ∨ (∃ m, a.view.shape = [m, n] ∧ b.view.shape = [n]) ∨
      (∃ p, a.view.shape = [n] ∧ b.view.shape = [n, p])) :
    ∃ r, tensordot a b [a.view.shape.length - 1] [0] = some (some r) ∧
      r.nd.Same (a.nd.tensordot1 b.nd (a.view.shape.length - 1) 0) := by
  rcases hs with ⟨m, p, sa, sb⟩ | ⟨m, sa, sb⟩ | ⟨p, sa, sb⟩
  · obtain ⟨r, h1, h2, h3, h4, h5⟩ := matmul_mm (out := DType.f64) (by decide) ha hb sa sb da db
    have sa' : a.nd.shape = [m, n] := sa
    have sb' : b.nd.shape = [n, p] := sb
    refine ⟨r, ?_, h5.trans ⟨by simp [Nd.mm, Nd.tensordot1, sa', sb', sa], fun idx hi => ?_⟩⟩
    · unfold tensordot
      simp [sa, sb, h1]
    · have hi : InShape [a.nd.shape.getD 0 0, b.nd.shape.getD 1 0] idx := hi
      rw [sa', sb'] at hi
      obtain ⟨i, j, rfl, hi, hj⟩ := inShape_two hi
      simp [Nd.mm, Nd.tensordot1, sa', sa]
  · have sa' : a.nd.shape = [m, n] := sa
    have sb' : b.nd.shape = [n] := sb
    refine ⟨Held.of ⟨[m], (List.range m).map fun i => ∑ k ∈ Finset.range n, a.nd.get [i, k] * b.nd.get [k]⟩ 8 0, ?_, ?_⟩
    · unfold tensordot
      simp only [sa, sb, List.length_cons, List.length_nil, Nat.zero_add, Nat.reduceAdd, Nat.reduceSub]
      have hm : ((List.range m).mapM fun i => do
          let s ← (List.range n).foldlM (fun (s : α) j => do
            let x ← a.at? [i, j]
            let y ← b.at? [j]
            some (s + x * y)) 0
          some (i, s)) = some ((List.range m).map fun i => (i, ∑ k ∈ Finset.range n, a.nd.get [i, k] * b.nd.get [k])) := by
        refine mapM_of_some fun i hi => ?_
        rw [dotLoop_eq (ia := fun j => [i, j]) (ib := fun j => [j]) (by
          intro k hk; rw [sa]; simpa [InShape] using ⟨List.mem_range.1 hi, hk⟩) (by intro k hk; rw [sb]; simpa [InShape] using hk)]
        rfl
      simp only [Option.bind_eq_bind] at hm
      simp [List.zipIdx, hm, sizeOf_eq, size]
      rw [writes_vector (fun i => ∑ k ∈ Finset.range n, a.nd.get [i, k] * b.nd.get [k])]
    · have hI : (⟨[m], (List.range m).map fun i => ∑ k ∈ Finset.range n, a.nd.get [i, k] * b.nd.get [k]⟩ : Arr α).Is
          (a.nd.tensordot1 b.nd 1 0) := by
        refine ⟨by simp [Nd.tensordot1, sa', sb'], ?_⟩
        simp [Nd.tensordot1, sa', sb', Nd.toList, indices_singleton]
      rw [sa]
      exact hI.denote (by omega) 0
  · have sa' : a.nd.shape = [n] := sa
    have sb' : b.nd.shape = [n, p] := sb
    refine ⟨Held.of ⟨[p], (List.range p).map fun j => ∑ k ∈ Finset.range n, a.nd.get [k] * b.nd.get [k, j]⟩ 8 0, ?_, ?_⟩
    · unfold tensordot
      simp only [sa, sb, List.length_cons, List.length_nil, Nat.zero_add, Nat.reduceAdd, Nat.sub_self]
      have hm : ((List.range p).mapM fun j => do
          let s ← (List.range n).foldlM (fun (s : α) i => do
            let x ← a.at? [i]
            let y ← b.at? [i, j]
            some (s + x * y)) 0
          some (j, s)) = some ((List.range p).map fun j => (j, ∑ k ∈ Finset.range n, a.nd.get [k] * b.nd.get [k, j])) := by
        refine mapM_of_some fun j hj => ?_
        rw [dotLoop_eq (ia := fun i => [i]) (ib := fun i => [i, j]) (by intro k hk; rw [sa]; simpa [InShape] using hk) (by
          intro k hk; rw [sb]; simpa [InShape] using ⟨hk, List.mem_range.1 hj⟩)]
        rfl
      simp only [Option.bind_eq_bind] at hm
      simp [List.zipIdx, hm, sizeOf_eq, size]
      rw [writes_vector (fun j => ∑ k ∈ Finset.range n, a.nd.get [k] * b.nd.get [k, j])]
    · have hI : (⟨[p], (List.range p).map fun j => ∑ k ∈ Finset.range n, a.nd.get [k] * b.nd.get [k, j]⟩ : Arr α).Is
          (a.nd.tensordot1 b.nd 0 0) := by
        refine ⟨by simp [Nd.tensordot1, sa', sb'], ?_⟩
        simp [Nd.tensordot1, sa', sb', Nd.toList, indices_singleton]
      rw [sa]
      exact hI.denote (by omega) 0

/-- C42 (partial): `tensordot` of two vectors over their axes is the sum of products.  Missing: the shape is `(1,)` and not `()`. -/
theorem C42_tensordot_vectors_partial [NonUnitalNonAssocSemiring α] (a b : Held α) (n : Nat) (sa : a.view.shape = [n]) (sb : b.view.shape = [n]) :
    ∃ r, tensordot a b [0] [0] = some (some r) ∧ r.nd.shape = [1] ∧ r.nd.get [0] = ∑ k ∈ Finset.range n, a.nd.get [k] * b.nd.get [k] := by
  have h0 : ∀ x : α, (Held.of ⟨[1], [x]⟩ 8 0 : Held α).nd.get [0] = x := fun x => by
    have e : (byteOffset [0] (cStrides [1] 8)).toNat / 8 = 0 := by decide
    simp [Held.of, Held.nd, View.denote, Arr.mem, Arr.view, View.fresh, View.addr, e]
  refine ⟨Held.of ⟨[1], [∑ k ∈ Finset.range n, a.nd.get [k] * b.nd.get [k]]⟩ 8 0, ?_, rfl, h0 _⟩
  unfold tensordot
  have hm := dotLoop_eq (a := a) (b := b) (ia := fun i => [i]) (ib := fun i => [i]) (n := n)
    (by intro k hk; rw [sa]; simpa [InShape] using hk) (by intro k hk; rw [sb]; simpa [InShape] using hk)
  simp only [Option.bind_eq_bind] at hm
  simp [sa, sb, List.zipIdx, hm, sizeOf_eq, size, writes]

/-- C42: `tensordot` refuses operands above rank 2 and two matrices over other axes, which NumPy accepts. -/
theorem C42_tensordot_refused [NonUnitalNonAssocSemiring α] (a b : Held α) (p q : List Nat)
    (h : 2 < a.view.shape.length ∨ 2 < b.view.shape.length ∨
      (a.view.shape.length = 2 ∧ b.view.shape.length = 2 ∧ ¬ (p = [1] ∧ q = [0]))) :
    tensordot a b p q = none := by
  unfold tensordot
  split
  · rfl
  · split
    · rfl
    · split
      · rfl
      · split
        · rfl
        · rw [if_neg (by rintro ⟨h1, h2, h3, h4⟩; rcases h with h | h | ⟨_, _, h⟩
                         · omega
                         · omega
                         · exact h ⟨h3, h4⟩)]
          dsimp only
          by_cases h2 : a.view.shape.length > 2 ∨ b.view.shape.length > 2
          · rw [if_pos h2]
          · rw [if_neg h2]
            have : a.view.shape.length = 2 ∧ b.view.shape.length = 2 := by omega
            rw [if_neg (by omega), if_neg (by omega), if_neg (by omega)]

example : tensordot (Held.of ⟨[2, 2], [1, 2, 3, 4]⟩ 8 0 : Held Int) (Held.of ⟨[2, 2], [1, 2, 3, 4]⟩ 8 0) [0] [0] = none :=
  C42_tensordot_refused _ _ _ _ (Or.inr (Or.inr ⟨rfl, rfl, by simp⟩))

/-- C42, negated: the tensor product of two vectors (no axes summed) is wrong: the sum of products is stored in the first place. -/
theorem C42_tensordot_counterexample :
    (tensordot (Held.of ⟨[2], [1, 2]⟩ 8 0 : Held Int) (Held.of ⟨[2], [10, 100]⟩ 8 0) [] []).map (fun r => r.map fun x => (x.view.shape, x.nd.toList))
      = some (some ([2, 2], [210, 0, 0, 0])) := by decide +kernel

end Props
