import Verif.Model.Rearrange
import Verif.Spec.Rearrange
import Verif.Lemmas.Cumulative
import Verif.Lemmas.Copy
import Verif.Lemmas.Concat
/-!
# Lemmas: rolling, repeating, tiling, padding
-/

namespace Rumpy
open Spec

theorem gatherLoop_eq (out : List Nat) (src : List Nat → α) (zero : α) :
    gatherLoop out src zero = (indices out).map src := by
  unfold gatherLoop
  rw [odometerAll_eq]
  have : ((indices out).map fun d => (linearIndex d out, src d)) = (indices out).map fun d => (rank out d, src d) := by
    apply List.map_congr_left
    intro d hd
    rw [linearIndex_eq (mem_indices.1 hd).length_eq]
  rw [this, writes_indices _ _ _ (by simp [sizeOf_eq])]

theorem modify_eq_set (l : List Nat) (k : Nat) (f : Nat → Nat) (h : k < l.length) : l.modify k f = l.set k (f (l.getD k 0)) := by
  apply List.ext_getElem
  · simp
  · intro i h1 h2
    simp only [List.getElem_modify, List.getElem_set]
    split
    · rename_i he
      subst he
      rw [List.getD_eq_getElem _ _ h]
    · rfl

theorem wrapAxis_eq (n : Nat) (ax : Int) : wrapAxis n ax = pyIndex n ax := by
  unfold wrapAxis pyIndex
  dsimp only
  by_cases h : ax < 0
  · rw [if_pos h]
    by_cases h1 : 0 ≤ (n : Int) + ax
    · rw [if_pos (by omega), if_neg (by omega), if_pos (by omega)]
    · rw [if_neg (by omega), if_neg (by omega), if_neg (by omega)]
  · rw [if_neg h]
    by_cases h1 : ax < n
    · rw [if_pos (by omega), if_pos (by omega)]
    · rw [if_neg (by omega), if_neg (by omega), if_neg (by omega)]

theorem normShift_eq (shift : Int) (n : Nat) (hn : 0 < n) : (normShift shift n : Int) = shift % n := by
  unfold normShift
  have h1 : -(n : Int) < Int.tmod shift n := Int.lt_tmod_of_pos _ (by omega)
  have h2 : Int.tmod shift n < n := Int.tmod_lt_of_pos _ (by omega)
  rw [Int.natCast_mod, Int.toNat_of_nonneg (by omega), Int.add_emod_right]
  rw [Int.tmod_def]
  exact Int.sub_mul_emod_self_left _ _ _

theorem set_modify_self (l : List Nat) (k x : Nat) (f : Nat → Nat) : (l.set k x).modify k f = l.set k (f x) := by
  apply List.ext_getElem
  · simp
  · intro i h1 h2
    simp only [List.getElem_modify, List.getElem_set]
    split
    · rfl
    · rfl

/-! ### repeat -/

theorem repeatFlat_data (conv : α → α) (mem : Int → α) {v : View} (hw : v.WF) (n : Nat) (zero : α) :
    writes ((v.addrs.flatMap fun p => List.replicate n (conv (mem p))).zipIdx.map fun xi => (xi.2, xi.1))
      (List.replicate (sizeOf v.shape * n) zero) = ((v.denote mem).toList.flatMap fun x => List.replicate n (conv x)) := by
  rw [← addrs_map hw, List.flatMap_map]
  have := writes_zipIdx (fun x : α => x) (v.addrs.flatMap fun p => List.replicate n (conv (mem p)))
    (List.replicate (sizeOf v.shape * n) zero) (by
      rw [addrs_eq hw]
      simp only [List.length_replicate, List.length_flatMap, List.map_map, Function.comp_def, List.map_const',
        List.sum_replicate, length_indices, sizeOf_eq]
      rfl)
  rw [this]
  simp

theorem repeatAxis_data (g : List Nat → α) (s : List Nat) (axis n : Nat) (hn : 0 < n) (hax : axis < s.length) (zero : α) :
    writes ((odometerAll s).flatMap fun idx => (List.range n).map fun r =>
        (linearIndex (idx.set axis (idx.getD axis 0 * n + r)) (s.modify axis (· * n)), g idx))
      (List.replicate (sizeOf (s.modify axis (· * n))) zero)
    = (indices (s.modify axis (· * n))).map fun idx => g (idx.modify axis (· / n)) := by
  have hs : s.modify axis (· * n) = s.set axis (s.getD axis 0 * n) := modify_eq_set s axis _ hax
  apply writes_cover (f := fun idx => g (idx.modify axis (· / n))) (by simp [sizeOf_eq])
  · intro w hw
    obtain ⟨idx, hi, hw⟩ := List.mem_flatMap.1 hw
    rw [odometerAll_eq, mem_indices] at hi
    obtain ⟨r, hr, rfl⟩ := List.mem_map.1 hw
    rw [List.mem_range] at hr
    have hl := hi.length_eq
    refine ⟨idx.set axis (idx.getD axis 0 * n + r), ?_, ?_⟩
    · rw [hs, Spec.inShape_set hax]
      rw [inShape_iff_getD] at hi
      refine ⟨by simpa using hl, ?_, ?_⟩
      · rw [getD_set_self (by omega)]
        have := hi.2 axis hax
        nlinarith
      · intro k hk hne
        have : (idx.set axis (idx.getD axis 0 * n + r)).getD k 0 = idx.getD k 0 := by
          simp [List.getD, List.getElem?_set, Ne.symm hne]
        rw [this]; exact hi.2 k hk
    · rw [linearIndex_eq (by simpa using hl)]
      congr 1
      rw [set_modify_self]
      have : (idx.getD axis 0 * n + r) / n = idx.getD axis 0 := by
        rw [Nat.mul_comm, Nat.mul_add_div hn, Nat.div_eq_of_lt hr, Nat.add_zero]
      rw [this, Rumpy.set_getD_self (by omega)]
  · intro idx hi
    rw [hs, Spec.inShape_set hax] at hi
    obtain ⟨h1, h2, h3⟩ := hi
    rw [List.mem_flatMap]
    refine ⟨idx.modify axis (· / n), ?_, ?_⟩
    · rw [odometerAll_eq, mem_indices, inShape_iff_getD]
      refine ⟨by simpa using h1, fun k hk => ?_⟩
      by_cases he : axis = k
      · subst he
        rw [getD_modify_self (by omega)]
        exact Nat.div_lt_of_lt_mul (by rw [Nat.mul_comm]; exact h2)
      · rw [getD_modify_ne he]; exact h3 k hk (Ne.symm he)
    · rw [List.mem_map]
      refine ⟨idx.getD axis 0 % n, List.mem_range.2 (Nat.mod_lt _ hn), ?_⟩
      have e : (idx.modify axis (· / n)).set axis ((idx.modify axis (· / n)).getD axis 0 * n + idx.getD axis 0 % n) = idx := by
        rw [getD_modify_self (by omega), Nat.mul_comm, Nat.div_add_mod]
        rw [modify_eq_set _ _ _ (by omega), List.set_set, Rumpy.set_getD_self (by omega)]
      rw [e, linearIndex_eq (by simpa using h1)]

/-! ### ravel -/

theorem ravelArr_eq (eight : Bool) (h : Held α) (hw : h.view.WF) (hitem : 0 < h.view.item)
    (hal : eight = true → ∀ s ∈ h.view.strides, (h.view.item : Int) ∣ s)
    (hf : h.view.cFlag = true ∨ h.view.fFlag = false) (zero : α) :
    ∃ f, ravelArr eight h zero = some f ∧ f.view.WF ∧ f.view.shape = [size h.view.shape] ∧
      f.view.strides = [(h.view.item : Int)] ∧
      f.view.cFlag = true ∧ f.view.item = h.view.item ∧
      ∀ k, k < size h.view.shape → some (f.mem (f.view.offset + k * (f.view.item : Int))) = h.nd.toList[k]? := by
  have hc1 : ∀ (w : View) (n : Nat), (w.viewWith 0 [n] (cStrides [n] w.item)).cFlag = true := fun w n =>
    isCContiguous_cStrides _ _
  have hsz : ∀ n, sizeOf [n] = n := fun n => by simp [sizeOf]
  have hst1 : ∀ n i, cStrides [n] i = [(i : Int)] := fun n i => by simp [cStrides, cStridesAux]
  unfold ravelArr
  dsimp only
  cases hc : h.view.cFlag with
  | true =>
    have hr : h.view.reshape [sizeOf h.view.shape] =
        some (h.view.viewWith 0 [sizeOf h.view.shape] (cStrides [sizeOf h.view.shape] h.view.item)) := by
      unfold View.reshape
      rw [if_neg (by simp [hsz]), hc]
      rfl
    rw [hr]
    refine ⟨_, rfl, View.WF.viewWith (by simp [cStrides, cStridesAux]), by simp [View.viewWith, sizeOf_eq], by rw [hst1]; rfl, hc1 _ _, rfl, ?_⟩
    intro k hk
    obtain ⟨idx, hi, rfl⟩ := exists_rank hk
    have := toList_getElem? (nd := h.nd) (idx := idx) hi
    have e : h.nd.shape = h.view.shape := rfl
    rw [e] at this
    rw [this]
    congr 1
    show h.mem _ = h.mem (h.view.addr idx)
    rw [cFlag_addr hw hc hi]
    show h.mem (h.view.offset + 0 + _) = _
    rw [Int.add_zero]
    rfl
  | false =>
    have hff : h.view.fFlag = false := by
      rcases hf with h1 | h1
      · rw [hc] at h1; exact absurd h1 (by decide)
      · exact h1
    have hr : h.view.reshape [sizeOf h.view.shape] = none := by
      unfold View.reshape
      rw [if_neg (by simp [hsz]), hc, hff]
      rfl
    rw [hr]
    dsimp only
    have hcp := copyArr_eq eight h.mem hw hal zero
    set c := copyArr eight h.mem h.view zero with hcdef
    have hcs : c.shape = h.view.shape := hcp.1
    have hr2 : (Held.of c h.view.item zero).view.reshape [sizeOf h.view.shape] =
        some ((Held.of c h.view.item zero).view.viewWith 0 [sizeOf h.view.shape] (cStrides [sizeOf h.view.shape] h.view.item)) := by
      unfold View.reshape Held.of Arr.view View.fresh
      dsimp only
      rw [if_neg (by simp [hsz, hcs])]
      rfl
    rw [hr2]
    refine ⟨_, rfl, View.WF.viewWith (by simp [cStrides, cStridesAux]), by simp [View.viewWith, sizeOf_eq], by rw [hst1]; rfl, hc1 (Held.of c h.view.item zero).view _, rfl, ?_⟩
    intro k hk
    obtain ⟨idx, hi, rfl⟩ := exists_rank hk
    have := hcp.denote hitem zero
    have hg := this.2 idx (by show InShape c.shape idx; rw [hcs]; exact hi)
    have ht := toList_getElem? (nd := h.nd) (idx := idx) hi
    have e : h.nd.shape = h.view.shape := rfl
    rw [e] at ht
    rw [ht]
    congr 1
    show _ = (h.view.denote h.mem).get idx
    rw [← hg]
    show c.mem h.view.item zero _ = c.mem h.view.item zero ((c.view h.view.item).addr idx)
    have ha : (c.view h.view.item).addr idx = ((c.view h.view.item).offset + (rank c.shape idx : Int) * h.view.item) :=
      cFlag_addr (View.WF.fresh _ _) rfl (by show InShape c.shape idx; rw [hcs]; exact hi)
    rw [ha, hcs]
    show c.mem h.view.item zero ((c.view h.view.item).offset + 0 + _) = _
    rw [Int.add_zero]
    rfl

/-- The flattened array as a vector. -/
theorem ravelArr_toList (eight : Bool) (h : Held α) (hw : h.view.WF) (hitem : 0 < h.view.item)
    (hal : eight = true → ∀ s ∈ h.view.strides, (h.view.item : Int) ∣ s)
    (hf : h.view.cFlag = true ∨ h.view.fFlag = false) (zero : α) :
    ∃ f, ravelArr eight h zero = some f ∧ f.view.WF ∧ f.view.shape = [size h.view.shape] ∧
      f.view.strides = [(h.view.item : Int)] ∧ f.view.item = h.view.item ∧
      ∀ k, k < size h.view.shape → some (f.nd.get [k]) = h.nd.toList[k]? := by
  obtain ⟨f, h1, h2, h3, h4, h5, h6, h7⟩ := ravelArr_eq eight h hw hitem hal hf zero
  refine ⟨f, h1, h2, h3, h4, h6, fun k hk => ?_⟩
  rw [← h7 k hk]
  show some (f.mem (f.view.addr [k])) = _
  rw [cFlag_addr h2 h5 (by rw [h3]; exact ⟨hk, trivial⟩)]
  rw [h3]
  simp [rank, size]

/-! ### pad -/

theorem paddedShape_eq (s : List Nat) (w : List (Nat × Nat)) : paddedShape s w = Nd.padShape s w := by
  unfold paddedShape Nd.padShape
  rw [List.zip, List.map_zipWith]

theorem edgeIndex_eq : ∀ {s : List Nat} {w : List (Nat × Nat)} {d : List Nat}, w.length = s.length → d.length = s.length →
    (∀ n ∈ s, 0 < n) →
    edgeIndex d w s = (List.range s.length).map fun k => min (d.getD k 0 - (w.getD k (0, 0)).1) (s.getD k 0 - 1)
  | [], [], [], _, _, _ => rfl
  | n :: s, p :: w, i :: d, h1, h2, h3 => by
    rw [edgeIndex, edgeIndex_eq (by simpa using h1) (by simpa using h2) (fun n hn => h3 n (by simp [hn])),
      List.length_cons, List.range_succ_eq_map, List.map_cons, List.map_map]
    have hn := h3 n (by simp)
    congr 1
    simp only [List.getD_cons_zero]
    split
    · omega
    · split <;> omega
  | [], _ :: _, _, h, _, _ => by simp at h
  | _ :: _, [], _, h, _, _ => by simp at h
  | [], [], _ :: _, _, h, _ => by simp at h
  | _ :: _, _ :: _, [], _, h, _ => by simp at h

theorem padShape_length {s : List Nat} {w : List (Nat × Nat)} (h : w.length = s.length) :
    (Nd.padShape s w).length = s.length := by
  simp [Nd.padShape, h]

theorem padShape_getD {s : List Nat} {w : List (Nat × Nat)} (h : w.length = s.length) {k : Nat} (hk : k < s.length) :
    (Nd.padShape s w).getD k 0 = s.getD k 0 + (w.getD k (0, 0)).1 + (w.getD k (0, 0)).2 := by
  have hk' : k < w.length := by omega
  rw [List.getD_eq_getElem _ _ (by simp [Nd.padShape]; omega), List.getD_eq_getElem _ _ hk, List.getD_eq_getElem _ _ hk']
  simp [Nd.padShape]

theorem addPad_getD {i : List Nat} {w : List (Nat × Nat)} (h : w.length = i.length) {k : Nat} (hk : k < i.length) :
    (List.zipWith (fun i p => i + p.1) i w).getD k 0 = i.getD k 0 + (w.getD k (0, 0)).1 := by
  have hk' : k < w.length := by omega
  rw [List.getD_eq_getElem _ _ (by simp; omega), List.getD_eq_getElem _ _ hk, List.getD_eq_getElem _ _ hk']
  simp

theorem subPad_getD {i : List Nat} {w : List (Nat × Nat)} (h : w.length = i.length) {k : Nat} (hk : k < i.length) :
    (List.zipWith (fun i p => i - p.1) i w).getD k 0 = i.getD k 0 - (w.getD k (0, 0)).1 := by
  have hk' : k < w.length := by omega
  rw [List.getD_eq_getElem _ _ (by simp; omega), List.getD_eq_getElem _ _ hk, List.getD_eq_getElem _ _ hk']
  simp

theorem ext_getD {a b : List Nat} (hl : a.length = b.length) (h : ∀ k, k < a.length → a.getD k 0 = b.getD k 0) : a = b := by
  apply List.ext_getElem hl
  intro i h1 h2
  have := h i h1
  rwa [List.getD_eq_getElem _ _ h1, List.getD_eq_getElem _ _ h2] at this

theorem copyRegion_eq (conv : α → α) (mem : Int → α) (v : View) {w : List (Nat × Nat)} (hl : w.length = v.shape.length)
    (c : α) (hconv : ∀ idx, InShape v.shape idx → conv (mem (v.addr idx)) = mem (v.addr idx)) :
    copyRegion conv mem v w (paddedShape v.shape w) (List.replicate (sizeOf (paddedShape v.shape w)) c)
      = ((v.denote mem).padConst w c).toList := by
  rw [paddedShape_eq]
  set out := Nd.padShape v.shape w with hout
  have hol : out.length = v.shape.length := padShape_length hl
  have hT : ∀ i, InShape v.shape i → InShape out (List.zipWith (fun i p => i + p.1) i w) := by
    intro i hi
    have hil := hi.length_eq
    rw [inShape_iff_getD] at hi ⊢
    refine ⟨by simp [hol]; omega, fun k hk => ?_⟩
    rw [hol] at hk
    rw [addPad_getD (by omega) (by omega), hout, padShape_getD hl hk]
    have := hi.2 k hk
    omega
  have hinj : ∀ i j, InShape v.shape i → InShape v.shape j →
      List.zipWith (fun i p => i + p.1) i w = List.zipWith (fun i p => i + p.1) j w → i = j := by
    intro i j hi hj e
    have hil := hi.length_eq
    have hjl := hj.length_eq
    apply ext_getD (by omega)
    intro k hk
    have h1 := addPad_getD (i := i) (w := w) (by omega) hk
    have h2 := addPad_getD (i := j) (w := w) (by omega) (k := k) (by omega)
    rw [e, h2] at h1
    omega
  unfold copyRegion
  rw [odometerAll_eq]
  have hws : ((indices v.shape).map fun s => (linearIndex (List.zipWith (fun i p => i + p.1) s w) out, conv (mem (v.addr s))))
      = (indices v.shape).map fun s => (rank out (List.zipWith (fun i p => i + p.1) s w), mem (v.addr s)) := by
    apply List.map_congr_left
    intro s hs
    have hs := mem_indices.1 hs
    rw [linearIndex_eq (hT s hs).length_eq, hconv s hs]
  rw [hws]
  apply eq_toList
  · simp [sizeOf_eq]; rfl
  · intro idx hi
    have hi : InShape out idx := hi
    have hil := hi.length_eq
    show _ = some (if _ then _ else c)
    by_cases hin : ∀ k, k < v.shape.length → (w.getD k (0, 0)).1 ≤ idx.getD k 0 ∧
          idx.getD k 0 < (w.getD k (0, 0)).1 + v.shape.getD k 0
    · have hlw : w.length = idx.length := by omega
      have hsrc : InShape v.shape (List.zipWith (fun i p => i - p.1) idx w) := by
        rw [inShape_iff_getD]
        refine ⟨by simp; omega, fun k hk => ?_⟩
        rw [subPad_getD hlw (by omega)]
        have := hin k hk
        omega
      have hback : List.zipWith (fun i p => i + p.1) (List.zipWith (fun i p => i - p.1) idx w) w = idx := by
        apply ext_getD
        · simp; omega
        · intro k hk
          have hk : k < idx.length := by simp at hk; omega
          rw [addPad_getD (by simp; omega) (by simp; omega), subPad_getD hlw hk]
          have := hin k (by omega)
          omega
      rw [show (View.denote mem v).shape = v.shape from rfl, if_pos hin]
      apply writes_get
      · rw [List.map_map]
        apply (List.nodup_map_iff_inj_on (indices_nodup _)).2
        intro a ha b hb e
        have ha := mem_indices.1 ha
        have hb := mem_indices.1 hb
        exact hinj a b ha hb (rank_inj (hT a ha) (hT b hb) e)
      · rw [List.mem_map]
        refine ⟨_, mem_indices.2 hsrc, ?_⟩
        rw [hback]
        rfl
      · simp only [List.length_replicate, sizeOf_eq]
        exact rank_lt hi
    · rw [show (View.denote mem v).shape = v.shape from rfl, if_neg hin, writes_get_notMem, List.getElem?_replicate, if_pos]
      · rw [sizeOf_eq]; exact rank_lt hi
      · intro hm
        rw [List.map_map, List.mem_map] at hm
        obtain ⟨s, hs, e⟩ := hm
        have hs := mem_indices.1 hs
        have hsl := hs.length_eq
        have e := rank_inj (hT s hs) hi e
        apply hin
        intro k hk
        rw [← e, addPad_getD (by omega) (by omega)]
        have := (inShape_iff_getD.1 hs).2 k hk
        omega

end Rumpy

namespace Rumpy
open Spec

/-! ### tile -/

theorem padOnes_length {n : Nat} {s : List Nat} (h : s.length ≤ n) : (Nd.padOnes n s).length = n := by
  simp [Nd.padOnes]; omega

theorem zipWith_getD {a b : List Nat} (f : Nat → Nat → Nat) {k : Nat} (ha : k < a.length) (hb : k < b.length) :
    (List.zipWith f a b).getD k 0 = f (a.getD k 0) (b.getD k 0) := by
  rw [List.getD_eq_getElem _ _ (by simp; omega), List.getD_eq_getElem _ _ ha, List.getD_eq_getElem _ _ hb]
  simp

theorem getD_drop (l : List Nat) (m k : Nat) : (l.drop m).getD k 0 = l.getD (m + k) 0 := by
  simp [List.getD]

theorem padOnes_getD_right {n : Nat} {s : List Nat} (h : s.length ≤ n) (k : Nat) :
    (Nd.padOnes n s).getD (n - s.length + k) 0 = s.getD k 0 := by
  unfold Nd.padOnes
  simp only [List.getD]
  rw [List.getElem?_append_right (by simp)]
  simp

/-- The source index of `tile` lies in the array. -/
theorem tile_source {s reps idx : List Nat}
    (hi : InShape (List.zipWith (· * ·) (Nd.padOnes (max s.length reps.length) s) (Nd.padOnes (max s.length reps.length) reps)) idx) :
    InShape s ((List.zipWith (· % ·) idx (Nd.padOnes (max s.length reps.length) s)).drop (max s.length reps.length - s.length)) := by
  set n := max s.length reps.length with hn
  have h1 : (Nd.padOnes n s).length = n := padOnes_length (by omega)
  have h2 : (Nd.padOnes n reps).length = n := padOnes_length (by omega)
  rw [inShape_iff_getD] at hi
  have hil : idx.length = n := by rw [hi.1]; simp [h1, h2]
  rw [inShape_iff_getD]
  refine ⟨by simp [h1, hil]; omega, fun k hk => ?_⟩
  rw [getD_drop, zipWith_getD _ (by omega) (by omega), padOnes_getD_right (by omega)]
  have := hi.2 (n - s.length + k) (by simp [h1, h2]; omega)
  rw [zipWith_getD _ (by omega) (by omega), padOnes_getD_right (by omega)] at this
  apply Nat.mod_lt
  rcases Nat.eq_zero_or_pos (s.getD k 0) with h0 | h0
  · rw [h0] at this; simp at this
  · exact h0

theorem inShape_one {n : Nat} {idx : List Nat} (hi : InShape [n] idx) : ∃ k, idx = [k] ∧ k < n := by
  rcases idx with _ | ⟨i, _ | ⟨j, idx⟩⟩
  · exact absurd hi id
  · exact ⟨i, rfl, hi.1⟩
  · exact absurd hi.2 id

/-- Copies of a block side by side. -/
theorem writes_blocks (f : Nat → α) (m n : Nat) (zero : α) :
    writes ((List.range m).flatMap fun i => (List.range n).map fun k => (i * n + k, f k)) (List.replicate (n * m) zero)
      = (List.range (n * m)).map fun p => f (p % n) := by
  have := writes_cover (s := [n * m]) (f := fun idx => f (idx.getD 0 0 % n)) (d := List.replicate (n * m) zero)
    (ws := (List.range m).flatMap fun i => (List.range n).map fun k => (i * n + k, f k)) (by simp [size]) (by
      intro w hw
      obtain ⟨i, hi, hw⟩ := List.mem_flatMap.1 hw
      obtain ⟨k, hk, rfl⟩ := List.mem_map.1 hw
      rw [List.mem_range] at hi hk
      refine ⟨[i * n + k], ⟨by nlinarith, trivial⟩, ?_⟩
      simp [rank, size, Nat.mul_add_mod', Nat.mod_eq_of_lt hk]) (by
      intro idx hi
      obtain ⟨p, rfl, hp⟩ := inShape_one hi
      have hn : 0 < n := by
        rcases Nat.eq_zero_or_pos n with h0 | h0
        · subst h0; simp at hp
        · exact h0
      rw [List.mem_flatMap]
      refine ⟨p / n, List.mem_range.2 (Nat.div_lt_of_lt_mul hp), ?_⟩
      rw [List.mem_map]
      refine ⟨p % n, List.mem_range.2 (Nat.mod_lt _ hn), ?_⟩
      simp [rank, size, Nat.div_add_mod'])
  rw [this, indices_singleton, List.map_map]
  rfl

/-! ### Rotation -/

theorem getD_set' (l : List Nat) (k j x : Nat) (hk : k < l.length) :
    (l.set k x).getD j 0 = if k = j then x else l.getD j 0 := by
  simp only [List.getD, List.getElem?_set]
  split
  · rename_i h; subst h; simp [hk]
  · rfl

theorem swap_get_idx {n p q : Nat} (hp : p < n) (hq : q < n)
    (hperm : (View.swapOrder n p q).Perm (List.range n))
    (hget : ∀ k, k < n → (View.swapOrder n p q)[k]? = some (if k = p then q else if k = q then p else k))
    {k : Nat} (hk : k < n) : (View.swapOrder n p q).idxOf k = if k = p then q else if k = q then p else k := by
  have hnd : (View.swapOrder n p q).Nodup := hperm.symm.nodup List.nodup_range
  have hl : (View.swapOrder n p q).length = n := by simp [View.swapOrder]
  set j := if k = p then q else if k = q then p else k with hj
  have hjn : j < n := by rw [hj]; split <;> [skip; split] <;> omega
  have h1 := hget j hjn
  have h2 : (if j = p then q else if j = q then p else j) = k := by
    rw [hj]
    by_cases e1 : k = p
    · subst e1
      rw [if_pos rfl]
      by_cases e2 : q = k
      · rw [if_pos e2]; exact e2
      · rw [if_neg e2, if_pos rfl]
    · rw [if_neg e1]
      by_cases e2 : k = q
      · subst e2; simp
      · rw [if_neg e2, if_neg e1, if_neg e2]
  rw [h2] at h1
  obtain ⟨hlt, he⟩ := List.getElem?_eq_some_iff.1 h1
  have := List.Nodup.idxOf_getElem hnd j hlt
  rw [he] at this
  exact this

/-- Exchanging two axes, written with coordinates. -/
theorem transposeAxes_swap_same (a : Nd α) {p q : Nat} (hp : p < a.shape.length) (hq : q < a.shape.length)
    (hperm : (View.swapOrder a.shape.length p q).Perm (List.range a.shape.length))
    (hget : ∀ k, k < a.shape.length → (View.swapOrder a.shape.length p q)[k]? = some (if k = p then q else if k = q then p else k)) :
    (a.transposeAxes (View.swapOrder a.shape.length p q)).Same
      ⟨(a.shape.set p (a.shape.getD q 0)).set q (a.shape.getD p 0),
       fun idx => a.get ((idx.set p (idx.getD q 0)).set q (idx.getD p 0))⟩ := by
  have hl : (View.swapOrder a.shape.length p q).length = a.shape.length := by simp [View.swapOrder]
  constructor
  · apply ext_getD
    · simp [Nd.transposeAxes, hl]
    · intro k hk
      have hk : k < a.shape.length := by simpa [Nd.transposeAxes, hl] using hk
      show (List.map _ _).getD k 0 = _
      rw [getD_set' _ _ _ _ (by simpa using hq), getD_set' _ _ _ _ hp]
      simp only [List.getD, List.getElem?_map, hget k hk, Option.map_some, Option.getD_some]
      by_cases e1 : k = p
      · subst e1
        by_cases e2 : q = k
        · subst e2; simp
        · simp [e2]
      · by_cases e2 : k = q
        · subst e2; simp [e1]
        · simp [e1, e2, Ne.symm e1, Ne.symm e2]
  · intro idx hi
    have hil : idx.length = a.shape.length := by rw [hi.length_eq]; simp [Nd.transposeAxes, hl]
    show a.get _ = a.get _
    congr 1
    apply ext_getD
    · simp [hil]
    · intro k hk
      have hk : k < a.shape.length := by simpa using hk
      rw [getD_set' _ _ _ _ (by simp; omega), getD_set' _ _ _ _ (by omega)]
      simp only [List.getD, List.getElem?_map, List.getElem?_range hk, Option.map_some, Option.getD_some,
        swap_get_idx hp hq hperm hget hk]
      by_cases e1 : k = p
      · subst e1
        by_cases e2 : q = k
        · subst e2; simp
        · simp [e2]
      · by_cases e2 : k = q
        · subst e2; simp [e1]
        · simp [e1, e2, Ne.symm e1, Ne.symm e2]

theorem quarterTurn_shape_getD (a : Nd α) {p q : Nat} (hp : p < a.shape.length) (hq : q < a.shape.length) (k : Nat) :
    (a.quarterTurn p q).shape.getD k 0 = if q = k then a.shape.getD p 0 else if p = k then a.shape.getD q 0 else a.shape.getD k 0 := by
  show (List.set _ _ _).getD k 0 = _
  rw [getD_set' _ _ _ _ (by simpa using hq), getD_set' _ _ _ _ hp]

theorem quarterTurn_shape_length (a : Nd α) (p q : Nat) : (a.quarterTurn p q).shape.length = a.shape.length := by
  simp [Nd.quarterTurn]

theorem quarterTurn_inShape (a : Nd α) {p q : Nat} (hp : p < a.shape.length) (hq : q < a.shape.length) (hne : p ≠ q)
    {idx : List Nat} (hi : InShape (a.quarterTurn p q).shape idx) :
    InShape a.shape ((idx.set p (idx.getD q 0)).set q (a.shape.getD q 0 - 1 - idx.getD p 0)) := by
  rw [inShape_iff_getD] at hi
  rw [quarterTurn_shape_length] at hi
  have h1 := hi.2 p hp
  have h2 := hi.2 q hq
  rw [quarterTurn_shape_getD a hp hq] at h1 h2
  rw [if_neg (Ne.symm hne), if_pos rfl] at h1
  rw [if_pos rfl] at h2
  rw [inShape_iff_getD]
  refine ⟨by simpa using hi.1, fun k hk => ?_⟩
  rw [getD_set' _ _ _ _ (by simp; omega), getD_set' _ _ _ _ (by omega)]
  have h3 := hi.2 k hk
  rw [quarterTurn_shape_getD a hp hq] at h3
  split
  · rename_i e; subst e; omega
  · rename_i e
    rw [if_neg e] at h3
    split
    · rename_i e'; subst e'; omega
    · rename_i e'; rw [if_neg e'] at h3; exact h3

theorem Nd.Same.quarterTurn {a b : Nd α} (h : a.Same b) {p q : Nat} (hp : p < a.shape.length) (hq : q < a.shape.length)
    (hne : p ≠ q) : (a.quarterTurn p q).Same (b.quarterTurn p q) := by
  refine ⟨by simp [Nd.quarterTurn, h.1], fun idx hi => ?_⟩
  have := h.2 _ (quarterTurn_inShape a hp hq hne hi)
  show a.get _ = b.get _
  rw [this, h.1]

/-- Two quarter turns. -/
theorem quarterTurn_two (a : Nd α) {p q : Nat} (hp : p < a.shape.length) (hq : q < a.shape.length) (hne : p ≠ q) :
    ((a.quarterTurn p q).quarterTurn p q).Same ((a.flip p).flip q) := by
  have hl := quarterTurn_shape_length a p q
  constructor
  · apply ext_getD
    · simp [Nd.quarterTurn, Nd.flip]
    · intro k hk
      rw [quarterTurn_shape_getD _ (by omega) (by omega), quarterTurn_shape_getD _ hp hq, quarterTurn_shape_getD _ hp hq,
        quarterTurn_shape_getD _ hp hq]
      show _ = a.shape.getD k 0
      by_cases e1 : q = k
      · subst e1; simp [Ne.symm hne]
      · by_cases e2 : p = k
        · subst e2; simp [e1]
        · simp [e1, e2]
  · intro idx hi
    have hil : idx.length = a.shape.length := by rw [hi.length_eq, quarterTurn_shape_length, hl]
    show a.get _ = a.get _
    congr 1
    apply ext_getD
    · simp
    · intro k hk
      have hk : k < idx.length := by simpa using hk
      rw [quarterTurn_shape_getD _ hp hq, if_pos rfl]
      show _ = (List.modify (List.modify idx q fun k => a.shape.getD q 0 - 1 - k) p fun k => a.shape.getD p 0 - 1 - k).getD k 0
      repeat rw [getD_set' _ _ _ _ (by first | omega | (simp only [List.length_set]; omega))]
      by_cases e1 : q = k
      · subst e1
        rw [if_pos rfl, getD_modify_ne hne, getD_modify_self (by omega)]
        simp [Ne.symm hne]
      · by_cases e2 : p = k
        · subst e2
          rw [if_neg e1, getD_modify_self (by simp; omega), getD_modify_ne (Ne.symm hne)]
          simp
        · rw [if_neg e1, if_neg e2, getD_modify_ne e2, getD_modify_ne e1]
          simp [e1, e2]

end Rumpy
