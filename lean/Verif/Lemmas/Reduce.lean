import Verif.Model.Reduce
import Verif.Lemmas.Elementwise
import Verif.Props.Layout
import Mathlib.Algebra.BigOperators.Intervals
import Mathlib.Tactic.Ring
/-!
# Lemmas: reductions
-/

namespace Rumpy
open Spec

section Monoid
variable {M : Type} [CommMonoid M] (ι : M → α) (g : α → M) (combine : α → α → α)

theorem foldl_prod (hc : ∀ m v, combine (ι m) v = ι (m * g v)) (d : Nat → α) (m : M) : ∀ n,
    (List.range n).foldl (fun acc i => combine acc (d i)) (ι m) = ι (m * ∏ i ∈ Finset.range n, g (d i))
  | 0 => by simp
  | n + 1 => by
    rw [List.range_succ, List.foldl_append, foldl_prod hc d m n]
    simp [hc, Finset.prod_range_succ, mul_assoc]

theorem chunkLoop_spec (hc : ∀ m v, combine (ι m) v = ι (m * g v)) (d : Nat → α) (stop : Nat) (h8 : 8 ∣ stop) :
    ∀ (fuel i : Nat) (r : Nat → α), 8 ∣ i → i ≤ stop → stop ≤ i + 8 * fuel →
      (∃ s : Nat → M, (∀ k, r k = ι (s k)) ∧ ∏ k ∈ Finset.range 8, s k = ∏ j ∈ Finset.range i, g (d j)) →
      (chunkLoop combine d stop fuel i r).1 = stop ∧
      ∃ s : Nat → M, (∀ k, (chunkLoop combine d stop fuel i r).2 k = ι (s k)) ∧
        ∏ k ∈ Finset.range 8, s k = ∏ j ∈ Finset.range stop, g (d j)
  | 0, i, r, _, h1, h2, h => by
    have : i = stop := by omega
    subst this
    exact ⟨rfl, h⟩
  | fuel + 1, i, r, hi, h1, h2, ⟨s, hs, hp⟩ => by
    unfold chunkLoop
    by_cases hlt : i < stop
    · rw [if_pos hlt]
      apply chunkLoop_spec hc d stop h8 fuel (i + 8) _ (by omega) (by omega) (by omega)
      refine ⟨fun k => s k * g (d (i + k)), fun k => by rw [hs, hc], ?_⟩
      rw [Finset.prod_mul_distrib, hp, Finset.prod_range_add]
    · rw [if_neg hlt]
      have : i = stop := by omega
      subst this
      exact ⟨rfl, s, hs, hp⟩

theorem restLoop_spec (hc : ∀ m v, combine (ι m) v = ι (m * g v)) (d : Nat → α) (n : Nat) :
    ∀ (fuel i : Nat) (m : M), i ≤ n → n ≤ i + fuel → m = ∏ j ∈ Finset.range i, g (d j) →
      restLoop combine d n fuel i (ι m) = ι (∏ j ∈ Finset.range n, g (d j))
  | 0, i, m, h1, h2, hm => by
    have : i = n := by omega
    subst this
    rw [restLoop, hm]
  | fuel + 1, i, m, h1, h2, hm => by
    unfold restLoop
    by_cases hlt : i < n
    · rw [if_pos hlt, hc]
      apply restLoop_spec hc d n fuel (i + 1) _ (by omega) (by omega)
      rw [Finset.prod_range_succ, hm]
    · rw [if_neg hlt]
      have : i = n := by omega
      subst this
      rw [hm]

/-- The eight-accumulator loop computes the product of all elements. -/
theorem reduce8_prod (hg : ∀ m, g (ι m) = m) (hc : ∀ m v, combine (ι m) v = ι (m * g v)) (d : Nat → α) (n : Nat) :
    reduce8 combine (ι 1) d n = ι (∏ i ∈ Finset.range n, g (d i)) := by
  unfold reduce8
  split
  · next h => simp [h]
  · split
    · rw [foldl_prod ι g combine hc]; simp
    · next h0 h8 =>
      have hstep := chunkLoop_spec ι g combine hc d (n - n % 8) (by omega) n 8
        (fun k => combine (ι 1) (d k)) (by omega) (by omega) (by omega)
        ⟨fun k => g (d k), fun k => by simp [hc], rfl⟩
      obtain ⟨h1, s, hs, hp⟩ := hstep
      generalize chunkLoop combine d (n - n % 8) n 8 (fun k => combine (ι 1) (d k)) = p at h1 hs
      obtain ⟨i, r⟩ := p
      simp only at h1 hs
      subst h1
      dsimp only
      have ht : tree8 combine r = ι (∏ k ∈ Finset.range 8, s k) := by
        simp [tree8, hs, hc, hg, Finset.prod_range_succ, mul_assoc]
      rw [ht]
      exact restLoop_spec ι g combine hc d n n _ _ (by omega) (by omega) hp

/-- The eight-accumulator loop agrees with the plain left-to-right loop. -/
theorem reduce8_foldl (hg : ∀ m, g (ι m) = m) (hc : ∀ m v, combine (ι m) v = ι (m * g v)) (d : Nat → α) (n : Nat) :
    reduce8 combine (ι 1) d n = (List.range n).foldl (fun acc i => combine acc (d i)) (ι 1) := by
  rw [reduce8_prod ι g combine hg hc, foldl_prod ι g combine hc, one_mul]

end Monoid

/-- What the reductions need of a kernel: the accumulators range over a set `S` (all values for the
plain kernels, the non-NaN ones for the NaN-skipping kernels) on which `combine` is a commutative
monoid with identity `init`, and any other element acts like some member of `S`. -/
structure Kernel (combine : α → α → α) (init : α) : Prop where
  exists_monoid : ∃ (M : Type) (_ : CommMonoid M) (ι : M → α) (g : α → M),
    ι 1 = init ∧ (∀ m, g (ι m) = m) ∧ ∀ m v, combine (ι m) v = ι (m * g v)

theorem Kernel.of_laws {α : Type} {op : α → α → α} {e : α} (assoc : ∀ a b c, op (op a b) c = op a (op b c))
    (comm : ∀ a b, op a b = op b a) (ident : ∀ a, op e a = a) : Kernel op e := by
  refine ⟨α, { mul := op, one := e, mul_assoc := assoc, one_mul := ident,
               mul_one := fun a => by show op a e = a; rw [comm]; exact ident a, mul_comm := comm }, id, id, ?_⟩
  exact ⟨rfl, fun _ => rfl, fun _ _ => rfl⟩

theorem Kernel.reduce8 {combine : α → α → α} {init : α} (k : Kernel combine init) (d : Nat → α) (n : Nat) :
    reduce8 combine init d n = (List.range n).foldl (fun acc i => combine acc (d i)) init := by
  obtain ⟨M, _, ι, g, rfl, h2, h3⟩ := k.exists_monoid
  exact reduce8_foldl ι g combine h2 h3 d n

theorem foldl_range_size {s : List Nat} {val : Nat → α} {get : List Nat → α} (combine : α → α → α) (init : α)
    (h : ∀ idx, InShape s idx → val (rank s idx) = get idx) :
    (List.range (size s)).foldl (fun acc i => combine acc (val i)) init =
      (indices s).foldl (fun acc i => combine acc (get i)) init := by
  rw [← map_rank_indices, List.foldl_map]
  apply List.foldl_ext
  intro acc i hi
  rw [h i (mem_indices.1 hi)]

theorem reduceTyped_eq {combine : α → α → α} {init : α} (k : Kernel combine init) (mem : Int → α) {v : View}
    (hw : v.WF) {x : α} (h : reduceTyped combine init mem v = some x) :
    x = (v.denote mem).toList.foldl combine init := by
  unfold Nd.toList
  rw [List.foldl_map]
  unfold reduceTyped at h
  dsimp only at h
  rw [sizeOf_eq] at h
  split at h
  · next h0 =>
    have : indices v.shape = [] := List.eq_nil_of_length_eq_zero (by rw [length_indices, h0])
    simp only [Option.some.injEq] at h
    simp [View.denote, this, h]
  · split at h
    · next hc =>
      simp only [Option.some.injEq] at h
      rw [← h, k.reduce8]
      exact foldl_range_size combine init fun idx hi => by simp only [View.denote, cFlag_addr hw hc hi]
    · split at h
      · next hn =>
        simp only [Option.some.injEq] at h
        rw [← h, k.reduce8]
        exact foldl_range_size combine init fun idx hi => by simp only [View.denote, stride1_addr hw hn hi]
      · simp at h

theorem reduceAll_eq {combine : α → α → α} {init : α} (k : Kernel combine init) (mem : Int → α) {v : View}
    (hw : v.WF) : reduceAll combine init mem v = (v.denote mem).toList.foldl combine init := by
  unfold reduceAll
  cases h : reduceTyped combine init mem v with
  | some x => exact reduceTyped_eq k mem hw h
  | none =>
    dsimp only
    rw [sizeOf_eq]
    split
    · next h0 =>
      have : indices v.shape = [] := List.eq_nil_of_length_eq_zero (by rw [length_indices, h0])
      simp [Nd.toList, View.denote, this]
    · rw [← addrs_map hw, List.foldl_map]

/-! ### Along an axis -/

theorem byteOffset_insert : ∀ {idx : List Nat} {st : List Int} {axis : Nat} (j : Nat),
    axis ≤ idx.length → st.length = idx.length + 1 →
    byteOffset (idx.insertIdx axis j) st = byteOffset idx (st.eraseIdx axis) + st.getD axis 0 * j
  | idx, [], axis, j, _, h => by simp at h
  | idx, s :: st, 0, j, _, _ => by
    simp only [List.insertIdx_zero, byteOffset, List.eraseIdx_zero, List.tail_cons, List.getD_cons_zero]
    ring
  | [], s :: st, axis + 1, j, h, _ => by simp at h
  | i :: idx, s :: st, axis + 1, j, h, hl => by
    have := byteOffset_insert (idx := idx) (st := st) (axis := axis) j (by simpa using h) (by simpa using hl)
    simp only [List.insertIdx_succ_cons, byteOffset, List.eraseIdx_cons_succ, List.getD_cons_succ, this]
    ring

theorem lane_addr {v : View} (hw : v.WF) {axis : Nat} (hax : axis < v.shape.length) {idx : List Nat}
    (hi : InShape (v.shape.eraseIdx axis) idx) (j : Nat) :
    v.addr (idx.insertIdx axis j) =
      v.offset + byteOffset idx (v.strides.eraseIdx axis) + v.strides.getD axis 0 * j := by
  have hl := hi.length_eq
  rw [List.length_eraseIdx, if_pos hax] at hl
  unfold View.addr
  rw [byteOffset_insert j (by omega) (by rw [hw.len]; omega), Int.add_assoc]

theorem inShape_insertIdx : ∀ {s idx : List Nat} {axis j : Nat}, axis < s.length →
    InShape (s.eraseIdx axis) idx → j < s.getD axis 0 → InShape s (idx.insertIdx axis j)
  | [], _, _, _, h, _, _ => by simp at h
  | n :: s, idx, 0, j, _, hi, hj => by
    simp only [List.eraseIdx_zero, List.tail_cons] at hi
    exact ⟨by simpa using hj, hi⟩
  | n :: s, [], axis + 1, j, h, hi, hj => by simp [InShape] at hi
  | n :: s, i :: idx, axis + 1, j, h, hi, hj => by
    simp only [List.eraseIdx_cons_succ, InShape] at hi
    exact ⟨hi.1, inShape_insertIdx (by simpa using h) hi.2 (by simpa using hj)⟩

/-- Effect of a sequence of read-modify-write steps on one cell. -/
theorem foldl_modify_get (combine : α → β → α) (ps : List (Nat × β)) (out : List α) (p : Nat) :
    (ps.foldl (fun out ps => out.modify ps.1 fun acc => combine acc ps.2) out)[p]? =
      out[p]?.map fun acc => ((ps.filter fun q => q.1 = p).map (·.2)).foldl combine acc := by
  induction ps generalizing out with
  | nil => simp
  | cons q ps ih =>
    rw [List.foldl_cons, ih, List.getElem?_modify]
    by_cases h : q.1 = p
    · simp only [h, if_true, List.filter_cons, decide_true, List.map_cons, List.foldl_cons]
      cases out[p]? <;> simp
    · simp only [h, if_false, List.filter_cons, decide_false]
      cases out[p]? <;> simp

theorem flatMap_range_single {f : Nat → List β} {n o : Nat} (ho : o < n) (h : ∀ x, x ≠ o → f x = []) :
    (List.range n).flatMap f = f o := by
  induction n with
  | zero => omega
  | succ n ih =>
    rw [List.range_succ, List.flatMap_append]
    by_cases hn : o = n
    · subst hn
      have : (List.range o).flatMap f = [] := by
        rw [List.flatMap_eq_nil_iff]
        intro x hx
        exact h x (by have := List.mem_range.1 hx; omega)
      simp [this]
    · rw [ih (by omega)]
      simp [h n (by omega)]

theorem accumulateRows_get (combine : α → α → α) (init : α) (d : Nat → α) {outer axisLen inner : Nat}
    {o k : Nat} (ho : o < outer) (hk : k < inner) :
    (accumulateRows combine init d outer axisLen inner (outer * inner))[o * inner + k]? =
      some ((List.range axisLen).foldl (fun acc j => combine acc (d ((o * axisLen + j) * inner + k))) init) := by
  have hlt : o * inner + k < outer * inner := by
    calc o * inner + k < o * inner + inner := by omega
      _ = (o + 1) * inner := by ring
      _ ≤ outer * inner := Nat.mul_le_mul_right _ ho
  have hpos : ((List.range outer).flatMap fun o => (List.range axisLen).flatMap fun _ =>
      (List.range inner).map fun k => o * inner + k) =
      (indices [outer, axisLen, inner]).map fun i => i.getD 0 0 * inner + i.getD 2 0 := by
    simp [indices, List.map_flatMap, List.flatMap_map, ← List.map_eq_flatMap, Function.comp_def]
  unfold accumulateRows
  dsimp only
  rw [hpos, List.zipIdx_map, indices_zipIdx, List.map_map]
  have e : ∀ l : List (List Nat), (l.map ((Prod.map (fun i : List Nat => i.getD 0 0 * inner + i.getD 2 0) id) ∘
      fun i => (i, rank [outer, axisLen, inner] i))).foldl
        (fun out ps => out.modify ps.1 fun acc => combine acc (d ps.2)) (List.replicate (outer * inner) init) =
      (l.map fun i => (i.getD 0 0 * inner + i.getD 2 0, d (rank [outer, axisLen, inner] i))).foldl
        (fun out ps => out.modify ps.1 fun acc => combine acc ps.2) (List.replicate (outer * inner) init) := by
    intro l
    rw [List.foldl_map, List.foldl_map]
    rfl
  rw [e, foldl_modify_get, List.getElem?_replicate, if_pos hlt, Option.map_some]
  congr 1
  have hfil : ((indices [outer, axisLen, inner]).map fun i =>
      (i.getD 0 0 * inner + i.getD 2 0, d (rank [outer, axisLen, inner] i))).filter (fun q => q.1 = o * inner + k) =
      (List.range axisLen).map fun j => (o * inner + k, d ((o * axisLen + j) * inner + k)) := by
    have key : ∀ x y, y < inner → (x * inner + y = o * inner + k ↔ x = o ∧ y = k) := by
      intro x y hy
      constructor
      · intro h
        have h1 : (x * inner + y) / inner = x := by
          rw [Nat.mul_comm, Nat.mul_add_div (by omega)]; simp [Nat.div_eq_of_lt hy]
        have h2 : (o * inner + k) / inner = o := by
          rw [Nat.mul_comm, Nat.mul_add_div (by omega)]; simp [Nat.div_eq_of_lt hk]
        have h3 : x = o := by rw [← h1, h, h2]
        subst h3
        exact ⟨rfl, by omega⟩
      · rintro ⟨rfl, rfl⟩; rfl
    have row : ∀ x j, ((List.range inner).map fun y => (x * inner + y, d ((x * axisLen + j) * inner + y))).filter
        (fun q => q.1 = o * inner + k) =
        if x = o then [(o * inner + k, d ((o * axisLen + j) * inner + k))] else [] := by
      intro x j
      rw [List.filter_map, List.map_eq_flatMap]
      have : (List.range inner).filter ((fun q : Nat × α => decide (q.1 = o * inner + k)) ∘
          fun y => (x * inner + y, d ((x * axisLen + j) * inner + y))) =
          if x = o then [k] else [] := by
        have hb : (List.range inner).filter ((fun q : Nat × α => decide (q.1 = o * inner + k)) ∘
          fun y => (x * inner + y, d ((x * axisLen + j) * inner + y))) =
            (List.range inner).filter fun y => decide (x = o) && (y == k) := by
          apply List.filter_congr
          intro y hy
          have := key x y (List.mem_range.1 hy)
          by_cases hx : x = o <;> by_cases hy' : y = k <;> simp [hx, hy', this] <;> simp_all
        rw [hb]
        by_cases hx : x = o
        · simp only [hx, decide_true, Bool.true_and, if_true]
          rw [List.filter_beq, List.count_eq_one_of_mem List.nodup_range (List.mem_range.2 hk)]
          rfl
        · simp [hx]
      rw [this]
      split <;> simp_all
    have e2 : ((indices [outer, axisLen, inner]).map fun i =>
        (i.getD 0 0 * inner + i.getD 2 0, d (rank [outer, axisLen, inner] i))) =
        (List.range outer).flatMap fun x => (List.range axisLen).flatMap fun j =>
          (List.range inner).map fun y => (x * inner + y, d ((x * axisLen + j) * inner + y)) := by
      simp only [indices, List.map_flatMap, List.flatMap_map, List.map_map, Function.comp_def, List.map_cons, List.map_nil,
        List.getD_cons_zero, List.getD_cons_succ, rank, size, Nat.mul_one, Nat.add_zero, ← List.map_eq_flatMap]
      apply List.flatMap_congr
      intro x _
      apply List.flatMap_congr
      intro j _
      apply List.map_congr_left
      intro y _
      congr 2
      ring
    rw [e2]
    simp only [List.filter_flatMap, row]
    rw [flatMap_range_single ho]
    · simp [List.map_eq_flatMap]
    · intro x hx
      simp [hx]
  rw [hfil]
  simp [List.foldl_map, Function.comp_def]

theorem accumulateRows_length (combine : α → α → α) (init : α) (d : Nat → α) (o a k n : Nat) :
    (accumulateRows combine init d o a k n).length = n := by
  unfold accumulateRows
  dsimp only
  generalize List.zipIdx _ = l
  suffices h : ∀ (l : List (Nat × Nat)) (out : List α),
      (l.foldl (fun out ps => out.modify ps.1 fun acc => combine acc (d ps.2)) out).length = out.length by
    rw [h]; simp
  intro l
  induction l with
  | nil => simp
  | cons q l ih => intro out; simp [ih]

theorem insertIdx_append_self : ∀ (i t : List Nat) (j : Nat), (i ++ t).insertIdx i.length j = i ++ j :: t
  | [], t, j => by simp
  | a :: i, t, j => by simp [insertIdx_append_self i t j]

/-- The lane along an axis, folded from the left. -/
def laneFold (combine : α → α → α) (init : α) (mem : Int → α) (v : View) (axis : Nat) (idx : List Nat) : α :=
  (List.range (v.shape.getD axis 0)).foldl (fun acc j => combine acc (mem (v.addr (idx.insertIdx axis j)))) init

theorem accumulateRows_eq (combine : α → α → α) (init : α) (mem : Int → α) {v : View} (hw : v.WF)
    (hc : v.cFlag = true) {axis : Nat} (hax : axis < v.shape.length) (hpos : size (v.shape.eraseIdx axis) ≠ 0) :
    accumulateRows combine init (fun i => mem (v.offset + i * v.item)) (max (size (v.shape.take axis)) 1)
      (v.shape.getD axis 0) (max (size (v.shape.drop (axis + 1))) 1) (size (v.shape.eraseIdx axis)) =
      (indices (v.shape.eraseIdx axis)).map (laneFold combine init mem v axis) := by
  have hsplit : v.shape = v.shape.take axis ++ (v.shape.getD axis 0 :: v.shape.drop (axis + 1)) := by
    conv_lhs => rw [← List.take_append_drop axis v.shape]
    rw [List.drop_eq_getElem_cons hax, List.getD_eq_getElem _ _ hax]
  have her : v.shape.eraseIdx axis = v.shape.take axis ++ v.shape.drop (axis + 1) := List.eraseIdx_eq_take_drop_succ ..
  have hsz : size (v.shape.eraseIdx axis) = size (v.shape.take axis) * size (v.shape.drop (axis + 1)) := by
    rw [her, size_append]
  have hta : (v.shape.take axis).length = axis := by rw [List.length_take]; omega
  generalize hA : v.shape.take axis = A at *
  generalize hB : v.shape.drop (axis + 1) = B at *
  generalize hN : v.shape.getD axis 0 = N at *
  have h1 : 0 < size A := by
    rcases Nat.eq_zero_or_pos (size A) with h | h
    · rw [hsz, h] at hpos; simp at hpos
    · exact h
  have h2 : 0 < size B := by
    rcases Nat.eq_zero_or_pos (size B) with h | h
    · rw [hsz, h] at hpos; simp at hpos
    · exact h
  rw [max_eq_left (by omega : 1 ≤ size A), max_eq_left (by omega : 1 ≤ size B)]
  apply eq_toList (nd := ⟨v.shape.eraseIdx axis, laneFold combine init mem v axis⟩)
  · rw [accumulateRows_length]
  · intro idx hi
    dsimp only at hi ⊢
    rw [her] at hi
    have hl := hi.length_eq
    obtain ⟨i, t, rfl, hil⟩ : ∃ i t, idx = i ++ t ∧ i.length = A.length :=
      ⟨idx.take A.length, idx.drop A.length, (List.take_append_drop _ _).symm, by
        rw [List.length_take, hl, List.length_append]; omega⟩
    obtain ⟨hiA, htB⟩ := (inShape_append_iff hil).1 hi
    rw [her, rank_append _ _ hil, size_append, accumulateRows_get combine init _ (rank_lt hiA) (rank_lt htB)]
    unfold laneFold
    rw [hN]
    congr 1
    apply List.foldl_ext
    intro acc j hj
    have hj : j < N := List.mem_range.1 hj
    have hins : (i ++ t).insertIdx axis j = i ++ j :: t := by
      rw [← hta, ← hil]
      exact insertIdx_append_self i t j
    have hin : InShape v.shape (i ++ j :: t) := by
      rw [hsplit, inShape_append_iff hil]
      exact ⟨hiA, hj, htB⟩
    rw [hins, cFlag_addr hw hc hin]
    congr 4
    conv_rhs => rw [hsplit]
    rw [rank_append _ _ hil]
    simp only [rank, size]
    ring

theorem lanes_eq (f : Int → α) {v : View} (hw : v.WF) {axis : Nat} (d : List α)
    (hd : d.length = size (v.shape.eraseIdx axis)) :
    writes ((axisOffsetIter v.shape v.strides axis 0).toList.zipIdx.map fun ob => (ob.2, f ob.1)) d =
      (indices (v.shape.eraseIdx axis)).map fun idx => f (byteOffset idx (v.strides.eraseIdx axis)) := by
  rw [Props.C01_axis_iter_row_major _ _ _ _ hw.len, writes_zipIdx f _ d (by simp [length_indices, hd]), List.map_map]
  simp [Function.comp_def]

theorem outShape_size (os : List Nat) : size (if os.isEmpty then [1] else os) = size os := by
  cases os <;> simp [size]

theorem reduceAxis_data {combine : α → α → α} {init : α} (k : Kernel combine init) (mem : Int → α) {v : View}
    (hw : v.WF) {axis : Nat} (hax : axis < v.shape.length) (zero : α) :
    (reduceAxis combine init mem v axis zero).data =
      (indices (v.shape.eraseIdx axis)).map (laneFold combine init mem v axis) := by
  unfold reduceAxis
  dsimp only
  rw [sizeOf_eq, outShape_size]
  split
  · next h =>
    dsimp only
    apply List.ext_getElem
    · simp [length_indices]
    · intro n h1 h2
      have : v.shape.getD axis 0 = 0 := by
        rcases h with h | h
        · simp [h] at h1
        · exact h
      simp only [List.getElem_replicate, List.getElem_map, laneFold, this, List.range_zero, List.foldl_nil]
  · next h =>
    push Not at h
    split
    · next hst =>
      dsimp only
      rw [lanes_eq (fun b => reduce8 combine init (fun j => mem (v.offset + b + j * v.item)) (v.shape.getD axis 0)) hw
        _ (by simp)]
      apply List.map_congr_left
      intro idx hi
      rw [k.reduce8]
      unfold laneFold
      apply List.foldl_ext
      intro acc j _
      rw [lane_addr hw hax (mem_indices.1 hi), hst, Int.mul_comm]
    · split
      · next hc =>
        dsimp only
        rw [sizeOf_eq, sizeOf_eq]
        exact accumulateRows_eq combine init mem hw hc hax h.1
      · dsimp only
        rw [lanes_eq (fun b => reduce8 combine init (fun j => mem (v.offset + b + v.strides.getD axis 0 * j))
          (v.shape.getD axis 0)) hw _ (by simp)]
        apply List.map_congr_left
        intro idx hi
        rw [k.reduce8]
        unfold laneFold
        apply List.foldl_ext
        intro acc j _
        rw [lane_addr hw hax (mem_indices.1 hi)]

theorem reduceAxis_shape (combine : α → α → α) (init : α) (mem : Int → α) (v : View) (axis : Nat) (zero : α) :
    (reduceAxis combine init mem v axis zero).shape =
      if (v.shape.eraseIdx axis).isEmpty then [1] else v.shape.eraseIdx axis := by
  unfold reduceAxis
  dsimp only
  by_cases h1 : sizeOf (if (v.shape.eraseIdx axis).isEmpty then [1] else v.shape.eraseIdx axis) = 0 ∨ v.shape.getD axis 0 = 0
  · rw [if_pos h1]
  · rw [if_neg h1]
    by_cases h2 : v.strides.getD axis 0 = v.item
    · rw [if_pos h2]
    · rw [if_neg h2]
      by_cases h3 : v.cFlag = true
      · rw [if_pos h3]
      · rw [if_neg h3]

theorem reduceAxisFallback_eq (combine : α → α → α) (init : α) (mem : Int → α) {v : View}
    (hw : v.WF) {axis : Nat} (hax : axis < v.shape.length) (hn : v.shape.getD axis 0 ≠ 0) (zero : α) :
    (reduceAxisFallback combine init mem v axis zero).data =
      (indices (v.shape.eraseIdx axis)).map (laneFold combine init mem v axis) := by
  unfold reduceAxisFallback
  dsimp only
  rw [sizeOf_eq, outShape_size]
  split
  · next h =>
    have h : size (v.shape.eraseIdx axis) = 0 := by tauto
    have : indices (v.shape.eraseIdx axis) = [] := List.eq_nil_of_length_eq_zero (by rw [length_indices, h])
    simp [h, this]
  · dsimp only
    rw [lanes_eq (fun b => (List.range (v.shape.getD axis 0)).foldl (fun acc (j : Nat) =>
      combine acc (mem (v.offset + b + v.strides.getD axis 0 * j))) init) hw _ (by simp)]
    apply List.map_congr_left
    intro idx hi
    unfold laneFold
    apply List.foldl_ext
    intro acc j _
    rw [lane_addr hw hax (mem_indices.1 hi)]

end Rumpy
