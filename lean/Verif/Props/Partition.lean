import Verif.Lemmas.Partition
import Verif.Lemmas.Float
import Verif.Model.Float
/-!
# Property C22 (partition, argpartition)
-/

namespace Props
open Spec Rumpy

/-- A partitioned rearrangement has at position `k` the key that sorting puts there. -/
theorem partitioned_sorted [LinearOrder κ] {a b : List κ} {k : Nat} (hp : b.Perm a) (h : PartitionedAt b k) :
    b[k]? = (a.insertionSort (· ≤ ·))[k]? := by
  obtain ⟨x, hx, h1, h2⟩ := h
  obtain ⟨hk, rfl⟩ := List.getElem?_eq_some_iff.1 hx
  have hb : b = b.take k ++ b[k] :: b.drop (k + 1) := by
    conv_lhs => rw [← List.take_append_drop k b, List.drop_eq_getElem_cons hk]
  have hs : ((b.take k).insertionSort (· ≤ ·) ++ b[k] :: (b.drop (k + 1)).insertionSort (· ≤ ·)) =
      a.insertionSort (· ≤ ·) := by
    apply List.Perm.eq_of_pairwise (le := (· ≤ ·)) (fun x y _ _ h h' => le_antisymm h h')
    · rw [List.pairwise_append, List.pairwise_cons]
      have hlow : ∀ y ∈ (b.take k).insertionSort (· ≤ ·), y ≤ b[k] := by
        intro y hy
        obtain ⟨i, hi, rfl⟩ := List.mem_iff_getElem.1 ((List.perm_insertionSort _ _).mem_iff.1 hy)
        rw [List.length_take] at hi
        apply h1 i _ (by omega)
        rw [List.getElem_take, List.getElem?_eq_getElem]
      have hhigh : ∀ y ∈ (b.drop (k + 1)).insertionSort (· ≤ ·), b[k] ≤ y := by
        intro y hy
        obtain ⟨i, hi, rfl⟩ := List.mem_iff_getElem.1 ((List.perm_insertionSort _ _).mem_iff.1 hy)
        rw [List.length_drop] at hi
        apply h2 (k + 1 + i) _ (by omega)
        rw [List.getElem_drop, List.getElem?_eq_getElem]
      refine ⟨List.pairwise_insertionSort _ _, ⟨hhigh, List.pairwise_insertionSort _ _⟩, ?_⟩
      intro y hy z hz
      rcases List.mem_cons.1 hz with rfl | hz
      · exact hlow y hy
      · exact (hlow y hy).trans (hhigh z hz)
    · exact List.pairwise_insertionSort _ _
    · refine List.Perm.trans ?_ (List.perm_insertionSort _ a).symm
      refine List.Perm.trans ?_ hp
      conv_rhs => rw [hb]
      exact ((List.perm_insertionSort _ _).append ((List.perm_insertionSort _ _).cons _))
  have hlen : ((b.take k).insertionSort (· ≤ ·)).length = k := by
    rw [List.length_insertionSort, List.length_take]; omega
  rw [← hs, List.getElem?_append_right (by omega), hx, hlen]
  simp

/-! ### The in-place methods -/

/-- C22 (partial): the `partition` method rearranges the elements so that position `kth` holds the
element sorting would put there, nothing larger stands before it and nothing smaller after it; the
quickselect loop terminates. It holds for elements that survive the conversion to `f64` and back.
Missing: 64-bit integers beyond 2^53 (`C22_method_counterexample`), and NaN. -/
theorem C22_method_partial {α φ κ : Type} [LinearOrder κ] (rd : α → φ) (wr : φ → α) (key : φ → κ) (l : List α)
    (hrw : ∀ x ∈ l, wr (rd x) = x) (kth : Nat) (hk : kth < l.length) :
    ∃ l', partitionMethod rd wr key l kth = .ok l' ∧ l'.Perm l ∧
      PartitionedAt (l'.map fun x => key (rd x)) kth ∧
      (l'.map fun x => key (rd x))[kth]? = ((l.map fun x => key (rd x)).insertionSort (· ≤ ·))[kth]? := by
  obtain ⟨m, e, hp, hpart⟩ := partitionSelect_spec key (l.map rd) (kth := kth) (by simpa using hk)
  have hperm : (m.map wr).Perm l := by
    have h := hp.map wr
    rw [List.map_map, show (l.map (wr ∘ rd)) = l from (List.map_congr_left hrw).trans (List.map_id _)] at h
    exact h
  have hkeys : (m.map wr).map (fun x => key (rd x)) = m.map key := by
    rw [List.map_map]
    apply List.map_congr_left
    intro y hy
    obtain ⟨x, hx, rfl⟩ := List.mem_map.1 (hp.mem_iff.1 hy)
    simp only [Function.comp_apply]
    rw [hrw x hx]
  refine ⟨m.map wr, ?_, hperm, ?_, ?_⟩
  · unfold partitionMethod
    rw [if_neg (by omega), e]
  · rw [hkeys]; exact hpart
  · rw [hkeys]
    apply partitioned_sorted _ hpart
    have := hperm.map fun x => key (rd x)
    rwa [hkeys] at this

example : partitionMethod id id id [5, 1, 4, 2, 3, 0] 2 = .ok [0, 1, 2, 3, 4, 5] := by decide

/-- C22: `kth` out of range is reported as an error, and nothing else fails. -/
theorem C22_method_error_iff {α φ κ : Type} [LinearOrder κ] (rd : α → φ) (wr : φ → α) (key : φ → κ) (l : List α)
    (kth : Nat) : (partitionMethod rd wr key l kth = .error ↔ l.length ≤ kth) ∧
      partitionMethod rd wr key l kth ≠ .panic := by
  unfold partitionMethod
  by_cases h : l.length ≤ kth
  · simp [h]
  · obtain ⟨m, e, -, -⟩ := partitionSelect_spec key (l.map rd) (kth := kth) (by simpa using h)
    rw [if_neg h, e]
    simp [h]

/-- C22 fails for large 64-bit integers: partitioning `[2^53 + 1, 0]` changes an element. -/
theorem C22_method_counterexample :
    partitionMethod intToF64 (f64ToInt (-2 ^ 63) (2 ^ 63 - 1)) id [2 ^ 53 + 1, 0] 0 = .ok [0, 2 ^ 53] := by
  decide

/-- C22: the `argpartition` method returns a permutation of the positions that partitions the
values. -/
theorem C22_argpartition_method {α φ κ : Type} [LinearOrder κ] (rd : α → φ) (key : φ → κ) (l : List α)
    (kth : Nat) (hk : kth < l.length) :
    ∃ p, argpartitionMethod rd key l kth = .ok p ∧ p.Perm (List.range l.length) ∧
      ∃ ks, (p.map fun i => (l[i]?).map fun x => key (rd x)) = ks.map some ∧ PartitionedAt ks kth ∧
        ks[kth]? = ((l.map fun x => key (rd x)).insertionSort (· ≤ ·))[kth]? := by
  obtain ⟨m, e, hp, hpart⟩ := partitionSelect_spec (fun p : φ × Nat => key p.1) (l.map rd).zipIdx (kth := kth)
    (by simpa using hk)
  refine ⟨m.map Prod.snd, ?_, ?_, m.map fun p => key p.1, ?_, hpart, ?_⟩
  · unfold argpartitionMethod
    rw [if_neg (by omega), e]
  · have h := hp.map Prod.snd
    rwa [List.zipIdx_map_snd, List.length_map, ← List.range_eq_range'] at h
  · rw [List.map_map, List.map_map]
    apply List.map_congr_left
    intro q hq
    have hm := hp.mem_iff.1 hq
    rw [List.mem_zipIdx_iff_getElem?, List.getElem?_map] at hm
    simp only [Function.comp_apply]
    obtain ⟨x, hx, he⟩ := Option.map_eq_some_iff.1 hm
    rw [hx, ← he]; rfl
  · apply partitioned_sorted _ hpart
    have h := (hp.map Prod.fst).map key
    rw [List.zipIdx_map_fst, List.map_map, List.map_map] at h
    exact h

example : argpartitionMethod id id [5, 1, 4, 2, 3, 0] 2 = .ok [5, 1, 3, 4, 2, 0] := by decide

/-! ### The functions along an axis -/

/-- The contract assumed of the standard library can be met: sorting meets it. -/
theorem selectContract_sort [LinearOrder κ] :
    SelectContract (fun (key : Nat → κ) _ l => l.insertionSort fun a b => key a ≤ key b) := by
  intro key k l hk
  refine ⟨List.perm_insertionSort _ _, ?_⟩
  have hs := placed_insertionSort (fun a b => key a ≤ key b) (fun _ _ => True) (fun a b => le_total _ _)
    (fun a b c => le_trans) l (by simp [List.pairwise_iff_getElem])
  rw [List.pairwise_iff_getElem] at hs
  have hk' : k < (l.insertionSort fun a b => key a ≤ key b).length := by simpa using hk
  refine partitionedAt_of key (List.getElem?_eq_getElem hk') ?_ ?_
  · intro i x hi hx
    obtain ⟨h, rfl⟩ := List.getElem?_eq_some_iff.1 hx
    exact (hs i k h hk' hi).1
  · intro i x hi hx
    obtain ⟨h, rfl⟩ := List.getElem?_eq_some_iff.1 hx
    exact (hs k i hk' h hi).1

theorem partitionLane_spec [LinearOrder κ] {select : (Nat → κ) → Nat → List Nat → List Nat} (hsel : SelectContract select)
    (key : α → κ) {kth : Nat} (zero : α) (l : List α) (hk : kth < l.length) :
    (partitionLane select key kth l zero).Perm l ∧ PartitionedAt ((partitionLane select key kth l zero).map key) kth := by
  obtain ⟨h1, h2⟩ := hsel (fun i => key (l.getD i zero)) kth (List.range l.length) (by simpa using hk)
  unfold partitionLane
  refine ⟨?_, by rw [List.map_map]; exact h2⟩
  refine (h1.map _).trans (List.Perm.of_eq ?_)
  apply List.ext_getElem
  · simp
  · intro i hi1 hi2
    rw [List.getElem_map, List.getElem_range, List.getD_eq_getElem]

/-- C22: `partition` along an axis rearranges every lane so that position `kth` holds the element
sorting would put there, nothing larger before it and nothing smaller after it, whatever the memory
layout of the input. -/
theorem C22_partition {α κ : Type} [LinearOrder κ] (select : (Nat → κ) → Nat → List Nat → List Nat)
    (hsel : SelectContract select) (key : α → κ) (eight : Bool) (mem : Int → α) (v : View) (hw : v.WF)
    (hal : eight = true → ∀ s ∈ v.strides, (v.item : Int) ∣ s) (kth axis : Nat) (hax : axis < v.shape.length)
    (hk : kth < v.shape.getD axis 0) (zero : α) :
    ∃ r nd, partitionAxis select key eight mem v kth axis zero = .ok r ∧ r.Is nd ∧ nd.shape = v.shape ∧
      ∀ idx, InShape (v.shape.eraseIdx axis) idx →
        (nd.lane axis idx).Perm ((v.denote mem).lane axis idx) ∧
        PartitionedAt ((nd.lane axis idx).map key) kth ∧
        ((nd.lane axis idx).map key)[kth]? = (((v.denote mem).lane axis idx).map key |>.insertionSort (· ≤ ·))[kth]? := by
  have hcopy := copyArr_eq eight mem hw hal zero
  have hlane : ∀ idx, ((v.denote mem).lane axis idx).length = v.shape.getD axis 0 := by
    intro idx; simp [Nd.lane, View.denote]
  unfold partitionAxis
  rw [if_pos hax]
  dsimp only
  rw [if_pos hk]
  by_cases h1 : v.shape.getD axis 0 ≤ 1
  · rw [if_pos h1]
    refine ⟨_, v.denote mem, rfl, hcopy, rfl, ?_⟩
    intro idx _
    have hkl : kth < ((v.denote mem).lane axis idx).length := by rw [hlane]; exact hk
    have hpart : PartitionedAt (((v.denote mem).lane axis idx).map key) kth := by
      refine partitionedAt_of key (List.getElem?_eq_getElem hkl) ?_ ?_
      · intro i x hi; omega
      · intro i x hi hx
        have := (List.getElem?_eq_some_iff.1 hx).1
        rw [hlane] at this
        omega
    exact ⟨List.Perm.refl _, hpart, partitioned_sorted (List.Perm.refl _) hpart⟩
  · rw [if_neg h1]
    let F : List α → List α := fun l => if kth < l.length then partitionLane select key kth l zero else l
    have hF : ∀ l, (F l).length = l.length := by
      intro l
      dsimp only [F]
      split
      · rename_i h
        exact (partitionLane_spec hsel key zero l h).1.length_eq
      · rfl
    have hfold : ((odometerAll (if (v.shape.eraseIdx axis).isEmpty then [1] else v.shape.eraseIdx axis)).foldl
        (fun d outer =>
          writes ((partitionLane select key kth ((List.range (v.shape.getD axis 0)).map fun i : Nat =>
            d.getD (byteOffset outer ((cStrides v.shape 1).eraseIdx axis) + i * (cStrides v.shape 1).getD axis 0).toNat zero)
              zero).zipIdx.map fun xi =>
            ((byteOffset outer ((cStrides v.shape 1).eraseIdx axis) + xi.2 * (cStrides v.shape 1).getD axis 0).toNat, xi.1)) d)
        (v.denote mem).toList) =
        (indices (v.shape.eraseIdx axis)).foldl (putLane v.shape axis F zero) (v.denote mem).toList := by
      have step : ∀ (o o' : List Nat), InShape (v.shape.eraseIdx axis) o' →
          byteOffset o ((cStrides v.shape 1).eraseIdx axis) = byteOffset o' ((cStrides v.shape 1).eraseIdx axis) →
          ∀ d : List α,
          writes ((partitionLane select key kth ((List.range (v.shape.getD axis 0)).map fun i : Nat =>
            d.getD (byteOffset o ((cStrides v.shape 1).eraseIdx axis) + i * (cStrides v.shape 1).getD axis 0).toNat zero)
              zero).zipIdx.map fun xi =>
            ((byteOffset o ((cStrides v.shape 1).eraseIdx axis) + xi.2 * (cStrides v.shape 1).getD axis 0).toNat, xi.1)) d =
          putLane v.shape axis F zero d o' := by
        intro o o' ho heq d
        have hpos : ∀ i : Nat, i < v.shape.getD axis 0 →
            (byteOffset o ((cStrides v.shape 1).eraseIdx axis) + i * (cStrides v.shape 1).getD axis 0).toNat =
            rank v.shape (o'.insertIdx axis i) := by
          intro i hi
          rw [heq, fresh_rank hax ho hi]; simp
        have hvals : ((List.range (v.shape.getD axis 0)).map fun i : Nat =>
            d.getD (byteOffset o ((cStrides v.shape 1).eraseIdx axis) + i * (cStrides v.shape 1).getD axis 0).toNat zero) =
            dataLane v.shape axis d zero o' := by
          apply List.map_congr_left
          intro i hi
          rw [hpos i (List.mem_range.1 hi)]
        rw [hvals]
        unfold putLane
        have hlen : (dataLane v.shape axis d zero o').length = v.shape.getD axis 0 := by simp [dataLane]
        have hFd : F (dataLane v.shape axis d zero o') = partitionLane select key kth (dataLane v.shape axis d zero o') zero := by
          dsimp only [F]; rw [if_pos (by rw [hlen]; exact hk)]
        rw [← hFd]
        congr 1
        apply List.map_congr_left
        intro xi hxi
        rw [List.mem_zipIdx_iff_getElem?] at hxi
        have := (List.getElem?_eq_some_iff.1 hxi).1
        rw [hF, hlen] at this
        rw [hpos _ this]
      rw [odometerAll_eq]
      by_cases he : (v.shape.eraseIdx axis).isEmpty
      · rw [if_pos he]
        have he := List.isEmpty_iff.1 he
        rw [he]
        simp only [indices, List.range_succ, List.range_zero, List.nil_append, List.flatMap_cons, List.map_cons,
          List.map_nil, List.flatMap_nil, List.append_nil, List.foldl_cons, List.foldl_nil]
        have hlen1 : v.shape.length = 1 := by
          have := congrArg List.length he
          rw [List.length_eraseIdx, if_pos hax] at this
          simp at this; omega
        have hst : (cStrides v.shape 1).eraseIdx axis = [] := by
          have h2 : (cStrides v.shape 1).length = 1 := by
            have := (View.WF.fresh v.shape 1).len
            simp only [View.fresh] at this
            omega
          apply List.eq_nil_of_length_eq_zero
          rw [List.length_eraseIdx, if_pos (by omega)]; omega
        exact step [0] [] (by rw [he]; trivial) (by rw [hst]; rfl) _
      · rw [if_neg he]
        apply List.foldl_ext
        intro d o ho
        exact step o o (mem_indices.1 ho) rfl d
    refine ⟨_, ⟨v.shape, fun i => (F ((v.denote mem).lane axis (i.eraseIdx axis))).getD (i.getD axis 0) zero⟩, rfl,
      ⟨hcopy.1, ?_⟩, rfl, ?_⟩
    · dsimp only
      rw [hcopy.2]
      exact hfold.trans (putLanes_eq hax F hF zero rfl)
    · intro idx hi
      rw [lane_mk v.shape hax (fun i => F ((v.denote mem).lane axis i)) zero idx hi (by rw [hF, hlane])]
      have hkl : kth < ((v.denote mem).lane axis idx).length := by rw [hlane]; exact hk
      have hFd : F ((v.denote mem).lane axis idx) = partitionLane select key kth ((v.denote mem).lane axis idx) zero := by
        dsimp only [F]; rw [if_pos hkl]
      rw [hFd]
      obtain ⟨hp, hpart⟩ := partitionLane_spec hsel key zero ((v.denote mem).lane axis idx) hkl
      exact ⟨hp, hpart, partitioned_sorted (hp.map key) hpart⟩

example : partitionAxis (fun (key : Nat → Int) _ l => l.insertionSort fun a b => key a ≤ key b) id true
    (fun p => [5, 1, 4, 2, 3, 0].getD (p.toNat / 8) 0) (View.fresh [2, 3] 8) 1 1 0 = .ok ⟨[2, 3], [1, 4, 5, 0, 2, 3]⟩ := by
  decide

/-- C22: `argpartition` along an axis returns in each lane a permutation of the positions that
partitions the values of the lane. -/
theorem C22_argpartition {α κ : Type} [LinearOrder κ] (select : (Nat → κ) → Nat → List Nat → List Nat)
    (hsel : SelectContract select) (key : α → κ) (mem : Int → α) (v : View) (hw : v.WF) (kth axis : Nat)
    (hax : axis < v.shape.length) (hk : kth < v.shape.getD axis 0) :
    ∃ r nd, argpartitionAxis select key mem v kth axis = .ok r ∧ r.Is nd ∧ nd.shape = v.shape ∧
      ∀ idx, InShape (v.shape.eraseIdx axis) idx →
        (nd.lane axis idx).Perm (List.range (v.shape.getD axis 0)) ∧
        PartitionedAt ((nd.lane axis idx).map fun i => key ((v.denote mem).get (idx.insertIdx axis i))) kth := by
  have hlane : ∀ (nd : Nd Nat), nd.shape = v.shape → ∀ idx, (nd.lane axis idx).length = v.shape.getD axis 0 := by
    intro nd h idx; simp [Nd.lane, h]
  unfold argpartitionAxis
  rw [if_pos hax]
  dsimp only
  rw [if_pos hk, sizeOf_eq]
  -- the order of one lane
  have horder : ∀ idx, InShape (v.shape.eraseIdx axis) idx → ∀ f : Nat → κ,
      (∀ i, i < v.shape.getD axis 0 → f i = key ((v.denote mem).get (idx.insertIdx axis i))) →
      (select f kth (List.range (v.shape.getD axis 0))).Perm (List.range (v.shape.getD axis 0)) ∧
      PartitionedAt ((select f kth (List.range (v.shape.getD axis 0))).map fun i =>
        key ((v.denote mem).get (idx.insertIdx axis i))) kth := by
    intro idx _ f hf
    obtain ⟨h1, h2⟩ := hsel f kth (List.range (v.shape.getD axis 0)) (by simpa using hk)
    refine ⟨h1, ?_⟩
    have : (select f kth (List.range (v.shape.getD axis 0))).map f =
        (select f kth (List.range (v.shape.getD axis 0))).map fun i => key ((v.denote mem).get (idx.insertIdx axis i)) := by
      apply List.map_congr_left
      intro i hi
      exact hf i (List.mem_range.1 (h1.mem_iff.1 hi))
    rwa [this] at h2
  by_cases h1 : v.shape.getD axis 0 ≤ 1 ∨ size v.shape = 0
  · rw [if_pos h1]
    refine ⟨_, ⟨v.shape, fun _ => 0⟩, rfl, ⟨rfl, by simp [Nd.toList, length_indices]⟩, rfl, ?_⟩
    intro idx hi
    have hn1 : v.shape.getD axis 0 = 1 := by
      rcases h1 with h1 | h1
      · omega
      · exfalso
        have := rank_lt (inShape_insertIdx hax hi hk)
        omega
    obtain rfl : kth = 0 := by omega
    simp only [Nd.lane, hn1, List.range_succ, List.range_zero, List.nil_append, List.map_cons, List.map_nil]
    refine ⟨List.Perm.refl _, _, rfl, ?_, ?_⟩
    · intro i y hi; omega
    · intro i y hi hy
      have := (List.getElem?_eq_some_iff.1 hy).1
      simp at this; omega
  rw [if_neg h1]
  by_cases h2 : v.shape.length = 1 ∧ v.cFlag = true
  · rw [if_pos h2]
    obtain ⟨n, hn⟩ : ∃ n, v.shape = [n] := by
      rcases hs : v.shape with _ | ⟨n, _ | ⟨m, s⟩⟩
      · simp [hs] at h2
      · exact ⟨n, rfl⟩
      · simp [hs] at h2
    obtain rfl : axis = 0 := by omega
    have hn0 : v.shape.getD 0 0 = n := by simp [hn]
    have hf : ∀ i, i < v.shape.getD 0 0 → key (mem (v.offset + (i : Int) * v.item)) =
        key ((v.denote mem).get (([] : List Nat).insertIdx 0 i)) := by
      intro i hi
      show _ = key (mem (v.addr [i]))
      rw [cFlag_addr hw h2.2 (by rw [hn]; exact ⟨by omega, trivial⟩), hn]
      simp [rank, size]
    obtain ⟨ho1, ho2⟩ := horder [] (by rw [hn]; trivial) _ hf
    refine ⟨_, ⟨v.shape, fun i => (select (fun i => key (mem (v.offset + (i : Int) * v.item))) kth
      (List.range (v.shape.getD 0 0))).getD (i.getD 0 0) 0⟩, rfl, ⟨rfl, ?_⟩, rfl, ?_⟩
    · dsimp only
      have hlen := ho1.length_eq
      rw [List.length_range] at hlen
      apply List.ext_getElem
      · rw [hlen]; simp [Nd.toList, length_indices, hn, size]
      · intro i hi1 hi2
        have hin : i < n := by rw [hlen, hn0] at hi1; exact hi1
        simp only [Nd.toList, List.getElem_map]
        have hix : (indices v.shape)[i]? = some [i] := by
          have := indices_getElem?_rank (s := v.shape) (idx := [i]) (by rw [hn]; exact ⟨hin, trivial⟩)
          rw [hn] at this
          simp only [rank, size, Nat.mul_one, Nat.add_zero] at this
          rw [hn]; exact this
        obtain ⟨hh, he⟩ := List.getElem?_eq_some_iff.1 hix
        rw [he]
        simp only [List.getD_cons_zero]
        exact (List.getD_eq_getElem _ _ hi1).symm
    · intro idx hi
      have : idx = [] := by
        rw [hn] at hi
        simpa [InShape] using hi.length_eq
      subst this
      rw [lane_mk v.shape hax (fun _ => select (fun i => key (mem (v.offset + (i : Int) * v.item))) kth
        (List.range (v.shape.getD 0 0))) 0 [] hi (by rw [ho1.length_eq, List.length_range])]
      exact ⟨ho1, ho2⟩
  · rw [if_neg h2]
    let g : List Nat → List Nat := fun outer =>
      select (fun i => key (mem (v.offset + byteOffset outer (v.strides.eraseIdx axis) + i * v.strides.getD axis 0)))
            kth (List.range (v.shape.getD axis 0))
    have hglen : ∀ o, (g o).length = v.shape.getD axis 0 := by
      intro o
      have := (hsel (fun i => key (mem (v.offset + byteOffset o (v.strides.eraseIdx axis) + i * v.strides.getD axis 0)))
        kth (List.range (v.shape.getD axis 0)) (by simpa using hk)).1.length_eq
      rwa [List.length_range] at this
    refine ⟨_, ⟨v.shape, fun i => (g (i.eraseIdx axis)).getD (i.getD axis 0) 0⟩, rfl, ⟨rfl, ?_⟩, rfl, ?_⟩
    · dsimp only
      rw [odometerAll_eq, outer_flatMap]
      · apply writes_lanes hax _ (by simp)
        intro idx hi
        have hl := lane_length hax hi
        show (g idx).zipIdx.map _ = _
        rw [zipIdx_eq_range' 0, hglen, List.map_map]
        apply List.map_congr_left
        intro j hj
        have hj := List.mem_range.1 hj
        simp only [Function.comp_apply]
        rw [fresh_rank hax hi hj, eraseIdx_insertIdx_self _ _ _ (by omega), getD_insertIdx_self _ _ _ (by omega)]
        simp
      · intro he
        have hlen1 : v.shape.length = 1 := by
          have := congrArg List.length he
          rw [List.length_eraseIdx, if_pos hax] at this
          simp at this; omega
        have hst : ∀ st : List Int, st.length = v.shape.length → st.eraseIdx axis = [] := by
          intro st hst
          apply List.eq_nil_of_length_eq_zero
          rw [List.length_eraseIdx, if_pos (by omega)]; omega
        have e1 := hst (cStrides v.shape 1) (by
          have := (View.WF.fresh v.shape 1).len
          simpa only [View.fresh] using this)
        have e2 := hst v.strides hw.len
        rw [e1, e2]
        simp [byteOffset]
    · intro idx hi
      rw [lane_mk v.shape hax g 0 idx hi (hglen idx)]
      apply horder idx hi
      intro i hi'
      show _ = key (mem (v.addr (idx.insertIdx axis i)))
      rw [lane_addr hw hax hi]
      congr 2
      rw [Int.mul_comm]

example : argpartitionAxis (fun (key : Nat → Int) _ l => l.insertionSort fun a b => key a ≤ key b) id
    (fun p => [5, 1, 4, 2, 3, 0].getD (p.toNat / 8) 0) (View.fresh [2, 3] 8) 1 0 = .ok ⟨[2, 3], [1, 0, 1, 0, 1, 0]⟩ := by
  decide

/-- C22: `kth` or the axis out of range panics, nothing else does. -/
theorem C22_panics_iff {α κ : Type} [LinearOrder κ] (select : (Nat → κ) → Nat → List Nat → List Nat)
    (key : α → κ) (eight : Bool) (mem : Int → α) (v : View) (kth axis : Nat) (zero : α) :
    (partitionAxis select key eight mem v kth axis zero = .panic ↔
      v.shape.length ≤ axis ∨ v.shape.getD axis 0 ≤ kth) ∧
    (argpartitionAxis select key mem v kth axis = .panic ↔ v.shape.length ≤ axis ∨ v.shape.getD axis 0 ≤ kth) := by
  unfold partitionAxis argpartitionAxis
  generalize v.shape.getD axis 0 = n
  by_cases h : axis < v.shape.length
  · rw [if_pos h, if_pos h]
    dsimp only
    by_cases hk : kth < n
    · rw [if_pos hk, if_pos hk]
      have h1 : ¬ v.shape.length ≤ axis := by omega
      have h2 : ¬ n ≤ kth := by omega
      simp only [h1, h2, or_self, iff_false]
      constructor
      · split <;> simp
      · split
        · simp
        · split <;> simp
    · rw [if_neg hk, if_neg hk]
      have h2 : n ≤ kth := by omega
      simp [h2]
  · rw [if_neg h, if_neg h]
    have h1 : v.shape.length ≤ axis := by omega
    simp [h1]

end Props
