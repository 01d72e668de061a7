import Verif.Lemmas.Broadcast
/-!
# Lemmas: every view operation reads only addresses its source reads
-/

namespace Rumpy
open Spec

/-- Every element of `v'` is stored where some element of `v` is stored. -/
def AddrSub (v' v : View) : Prop :=
  v'.item = v.item ∧
    ∀ idx, InShape v'.shape idx → ∃ idx', InShape v.shape idx' ∧ v'.addr idx = v.addr idx'

theorem AddrSub.refl (v : View) : AddrSub v v := ⟨rfl, fun idx h => ⟨idx, h, rfl⟩⟩

theorem addrSub_transpose {v : View} (hw : v.WF) : AddrSub v.transpose v := by
  refine ⟨rfl, fun idx hi => ⟨idx.reverse, ?_, ?_⟩⟩
  · exact inShape_reverse.1 hi
  · have hl := hi.length_eq
    simp only [View.transpose, View.viewWith, View.addr] at hl ⊢
    have := byteOffset_reverse (a := idx.reverse) (sa := v.strides)
      (by rw [hw.len]; simpa using hl)
    rw [List.reverse_reverse] at this
    rw [this]; ring

theorem addrSub_transposeAxes {v v' : View} (hw : v.WF) {axes : List Nat}
    (hp : axes.Perm (List.range v.shape.length)) (h : v.transposeAxes axes = some v') :
    v'.WF ∧ v'.strides = axes.map (fun a => v.strides.getD a 0) ∧ AddrSub v' v := by
  obtain ⟨hl, hlt, hnd, hmem⟩ := perm_range_facts hp
  unfold View.transposeAxes at h
  rw [if_neg (by simp [hl]), mapM_getElem? 0 hlt, mapM_getElem? 0 (by rw [hw.len]; exact hlt)] at h
  simp only [Option.bind_eq_bind, Option.bind_some, Option.some.injEq] at h
  subst h
  refine ⟨View.WF.viewWith (by simp), rfl, rfl, fun idx hi => ?_⟩
  simp only [View.viewWith] at hi
  have hil : idx.length = v.shape.length := by rw [hi.length_eq]; simp [hl]
  refine ⟨(List.range v.shape.length).map fun k => idx.getD (axes.idxOf k) 0, ?_, ?_⟩
  · rw [inShape_iff_getD] at hi ⊢
    refine ⟨by simp, fun k hk => ?_⟩
    have hk2 : axes.idxOf k < axes.length := List.idxOf_lt_length_iff.2 (hmem k hk)
    have := hi.2 (axes.idxOf k) (by simpa using hk2)
    rw [List.getD_eq_getElem _ _ (by simpa using hk)]
    simp only [List.getElem_map, List.getElem_range]
    have e : (axes.map fun a => v.shape.getD a 0).getD (axes.idxOf k) 0 = v.shape.getD k 0 := by
      rw [List.getD_eq_getElem _ _ (by simpa using hk2)]
      simp
    rw [← e]; exact this
  · simp only [View.addr, View.viewWith]
    rw [byteOffset_perm hp hil hw.len]; ring

theorem exists_rank {s : List Nat} {r : Nat} (h : r < size s) : ∃ idx, InShape s idx ∧ rank s idx = r := by
  have hm : r ∈ (indices s).map (rank s) := by rw [map_rank_indices]; exact List.mem_range.2 h
  obtain ⟨idx, hidx, hr⟩ := List.mem_map.1 hm
  exact ⟨idx, mem_indices.1 hidx, hr⟩

theorem exists_rankF : ∀ {s : List Nat} {r : Nat}, r < size s → ∃ idx, InShape s idx ∧ rankF s idx = r
  | [], r, h => ⟨[], by simp, by simp [size] at h; simp [rankF, h]⟩
  | n :: s, r, h => by
    simp only [size] at h
    have hn : 0 < n := Nat.pos_of_ne_zero (by rintro rfl; simp at h)
    obtain ⟨idx, h1, h2⟩ := exists_rankF (s := s) (r := r / n) (by
      rw [Nat.div_lt_iff_lt_mul hn, Nat.mul_comm]; exact h)
    refine ⟨(r % n) :: idx, ⟨Nat.mod_lt _ hn, h1⟩, ?_⟩
    simp only [rankF, h2]
    exact Nat.mod_add_div r n

theorem addrSub_reshape {v v' : View} (hw : v.WF) {s : List Nat} (h : v.reshape s = some v') :
    v'.WF ∧ (∀ st ∈ v'.strides, 0 ≤ st) ∧ AddrSub v' v := by
  unfold View.reshape at h
  split at h
  · simp at h
  · rename_i hsz
    simp only [sizeOf_eq, ne_eq, not_not] at hsz
    split at h
    · simp at h
    · rename_i hflag
      simp only [Option.some.injEq] at h
      subst h
      cases hc : v.cFlag with
      | true =>
        simp only [if_true]
        refine ⟨View.WF.viewWith (cStrides_length _ _), ?_, rfl, fun idx hi => ?_⟩
        · have : ∀ t : List Nat, ∀ st ∈ cStrides t v.item, (0 : Int) ≤ st := by
            intro t
            induction t with
            | nil => intro st hst; simp [cStrides, cStridesAux] at hst
            | cons n t ih =>
              intro st hst
              rw [cStrides_cons] at hst
              rcases List.mem_cons.1 hst with rfl | hst
              · positivity
              · exact ih st hst
          exact this s
        · simp only [View.viewWith] at hi
          obtain ⟨idx', h1, h2⟩ := exists_rank (s := v.shape) (r := rank s idx) (by rw [hsz]; exact rank_lt hi)
          refine ⟨idx', h1, ?_⟩
          simp only [View.addr, View.viewWith]
          rw [byteOffset_cStrides _ _ _ hi.length_eq, isC_sound hw.len (hw.c hc) h1, h2]; ring
      | false =>
        have hf : v.fFlag = true := by
          cases hf : v.fFlag with
          | true => rfl
          | false => simp [hc, hf] at hflag
        simp only [Bool.false_eq_true, if_false]
        refine ⟨View.WF.viewWith (fStridesLoop_length _ _), ?_, rfl, fun idx hi => ?_⟩
        · have : ∀ (t : List Nat) (k : Int), 0 ≤ k → ∀ st ∈ fStridesLoop t k, (0 : Int) ≤ st := by
            intro t
            induction t with
            | nil => intro k _ st hst; simp [fStridesLoop] at hst
            | cons n t ih =>
              intro k hk st hst
              simp only [fStridesLoop] at hst
              rcases List.mem_cons.1 hst with rfl | hst
              · exact hk
              · exact ih _ (by positivity) st hst
          exact this s v.item (by positivity)
        · simp only [View.viewWith] at hi
          obtain ⟨idx', h1, h2⟩ := exists_rankF (s := v.shape) (r := rankF s idx) (by rw [hsz]; exact rankF_lt hi)
          refine ⟨idx', h1, ?_⟩
          simp only [View.addr, View.viewWith, fStrides]
          rw [byteOffset_fStridesLoop _ _ _ hi.length_eq, isFAux_sound hw.len (hw.f hf) idx' h1, h2]; ring

theorem addrSub_broadcastTo {v v' : View} (hw : v.WF) {t : List Nat} (h : v.broadcastTo t = some v') :
    v'.WF ∧ AddrSub v' v := by
  obtain ⟨h1, h2, h3, h4⟩ := broadcastTo_addr hw h
  refine ⟨h1, ?_, fun idx hi => ⟨_, h4 idx (by rw [← h2]; exact hi), h3 idx (by rw [← h2]; exact hi)⟩⟩
  unfold View.broadcastTo at h
  split at h
  · simp at h
  · simp only at h
    split at h
    · simp at h
    · simp only [Option.some.injEq] at h; subst h; rfl

theorem broadcastLoop_nonneg : ∀ {os : List Nat} {sts : List Int} {ns : List Nat} {r : List Int},
    View.broadcastLoop os sts ns = some r → (∀ st ∈ sts, 0 ≤ st) → ∀ st ∈ r, 0 ≤ st
  | [], _, _, r, h, _ => by
    simp only [View.broadcastLoop, Option.some.injEq] at h
    subst h
    intro st hst
    cases hst
  | o :: os, st :: sts, n :: ns, r, h, hp => by
    simp only [View.broadcastLoop] at h
    split at h
    · obtain ⟨t, ht, rfl⟩ := Option.map_eq_some_iff.1 h
      intro x hx
      rcases List.mem_cons.1 hx with rfl | hx
      · exact hp _ (by simp)
      · exact broadcastLoop_nonneg ht (fun s hs => hp s (by simp [hs])) x hx
    · split at h
      · obtain ⟨t, ht, rfl⟩ := Option.map_eq_some_iff.1 h
        intro x hx
        rcases List.mem_cons.1 hx with rfl | hx
        · exact Int.le_refl _
        · exact broadcastLoop_nonneg ht (fun s hs => hp s (by simp [hs])) x hx
      · simp at h
  | _ :: _, [], _, _, h, _ => by simp [View.broadcastLoop] at h
  | _ :: _, _ :: _, [], _, h, _ => by simp [View.broadcastLoop] at h

theorem broadcastTo_nonneg {v v' : View} {t : List Nat} (h : v.broadcastTo t = some v')
    (hp : ∀ st ∈ v.strides, 0 ≤ st) : ∀ st ∈ v'.strides, 0 ≤ st := by
  unfold View.broadcastTo at h
  split at h
  · simp at h
  · simp only at h
    split at h
    · simp at h
    · rename_i st hst
      simp only [Option.some.injEq] at h
      subst h
      intro x hx
      simp only [View.viewWith, List.mem_append, List.mem_replicate] at hx
      rcases hx with ⟨_, rfl⟩ | hx
      · exact Int.le_refl _
      · exact broadcastLoop_nonneg hst hp x hx

theorem inShape_unsqueeze : ∀ {s idx : List Nat}, InShape (s.filter (· ≠ 1)) idx → InShape s (unsqueeze s idx)
  | [], idx, h => by simp [unsqueeze]
  | n :: s, idx, h => by
    by_cases hn : n = 1
    · have h' : InShape (s.filter (· ≠ 1)) idx := by simpa [hn] using h
      simp only [unsqueeze, hn, if_true, InShape]
      exact ⟨by omega, inShape_unsqueeze h'⟩
    · have h' : InShape (n :: s.filter (· ≠ 1)) idx := by simpa [hn] using h
      obtain ⟨i, t, rfl, hi, ht⟩ := inShape_cons.1 h'
      simp only [unsqueeze, hn, if_false, InShape]
      exact ⟨hi, inShape_unsqueeze ht⟩

theorem filter_zip_length : ∀ {s : List Nat} {sts : List Int}, sts.length = s.length →
    (((s.zip sts).filter (fun p => p.1 ≠ 1)).map (·.2)).length = (s.filter (· ≠ 1)).length
  | [], [], _ => rfl
  | n :: s, st :: sts, h => by
    have ih := filter_zip_length (s := s) (sts := sts) (by simpa using h)
    by_cases hn : n = 1 <;> simp [hn] at ih ⊢ <;> omega

theorem addrSub_squeeze {v : View} (hw : v.WF) : v.squeeze.WF ∧ AddrSub v.squeeze v := by
  unfold View.squeeze
  dsimp only
  split
  · rename_i h
    simp only [Bool.and_eq_true, beq_iff_eq, sizeOf_eq] at h
    refine ⟨View.WF.viewWith rfl, rfl, fun idx hi => ?_⟩
    refine ⟨List.replicate v.shape.length 0, inShape_replicate_zero (by omega), ?_⟩
    simp only [View.viewWith] at hi
    obtain ⟨i, t, rfl, hi1, ht⟩ := inShape_cons.1 hi
    have : i = 0 := by omega
    simp [View.addr, View.viewWith, byteOffset_replicate_zero, this, byteOffset]
  · refine ⟨View.WF.viewWith (filter_zip_length hw.len), rfl, fun idx hi => ?_⟩
    refine ⟨unsqueeze v.shape idx, inShape_unsqueeze hi, ?_⟩
    simp only [View.addr, View.viewWith]
    rw [byteOffset_squeeze hw.len hi]; ring

theorem squeeze_nonneg {v : View} (hp : ∀ st ∈ v.strides, 0 ≤ st) : ∀ st ∈ v.squeeze.strides, 0 ≤ st := by
  unfold View.squeeze
  dsimp only
  split
  · intro st hst
    simp only [View.viewWith, List.mem_singleton] at hst
    subst hst; positivity
  · intro st hst
    simp only [View.viewWith, List.mem_map, List.mem_filter] at hst
    obtain ⟨⟨a, b⟩, ⟨hm, _⟩, rfl⟩ := hst
    exact hp _ (List.of_mem_zip hm).2

theorem inShape_eraseIdx_insert : ∀ {axis : Nat} {s idx : List Nat}, axis ≤ s.length →
    InShape (s.insertIdx axis 1) idx → InShape s (idx.eraseIdx axis)
  | 0, s, idx, _, h => by
    simp only [List.insertIdx_zero] at h
    obtain ⟨i, t, rfl, _, ht⟩ := inShape_cons.1 h
    simpa using ht
  | axis + 1, n :: s, idx, hl, h => by
    simp only [List.insertIdx_succ_cons] at h
    obtain ⟨i, t, rfl, hi, ht⟩ := inShape_cons.1 h
    simp only [List.eraseIdx_cons_succ, InShape]
    exact ⟨hi, inShape_eraseIdx_insert (by simpa using hl) ht⟩
  | _ + 1, [], _, h, _ => by simp at h

theorem addrSub_expandDims {v v' : View} (hw : v.WF) {axis : Nat} (h : v.expandDims axis = some v') :
    v'.WF ∧ AddrSub v' v := by
  unfold View.expandDims at h
  split at h
  · simp at h
  · rename_i hle
    have hle' : axis ≤ v.shape.length := by omega
    simp only [Option.some.injEq] at h
    subst h
    refine ⟨View.WF.viewWith (by
      rw [List.length_insertIdx_of_le_length (by rw [hw.len]; exact hle'),
        List.length_insertIdx_of_le_length hle', hw.len]), rfl, fun idx hi => ?_⟩
    refine ⟨idx.eraseIdx axis, inShape_eraseIdx_insert hle' hi, ?_⟩
    simp only [View.viewWith] at hi
    simp only [View.addr, View.viewWith]
    rw [byteOffset_insertIdx hi hle' hw.len]; ring

theorem inShape_insert_zero : ∀ {axis : Nat} {s idx : List Nat}, s[axis]? = some 1 →
    InShape (s.eraseIdx axis) idx → InShape s (idx.insertIdx axis 0)
  | 0, n :: s, idx, h, hi => by
    simp only [List.getElem?_cons_zero, Option.some.injEq] at h
    subst h
    simp only [List.eraseIdx_cons_zero] at hi
    simp only [List.insertIdx_zero, InShape]
    exact ⟨by omega, hi⟩
  | axis + 1, n :: s, idx, h, hi => by
    simp only [List.eraseIdx_cons_succ] at hi
    obtain ⟨i, t, rfl, hin, ht⟩ := inShape_cons.1 hi
    simp only [List.insertIdx_succ_cons, InShape]
    exact ⟨hin, inShape_insert_zero (by simpa using h) ht⟩
  | _, [], _, h, _ => by simp at h

theorem addrSub_squeezeAxis {v : View} (hw : v.WF) (axis : Nat) :
    (v.squeezeAxis axis).WF ∧ AddrSub (v.squeezeAxis axis) v := by
  unfold View.squeezeAxis
  split
  · rename_i h
    have hax : axis < v.shape.length := (List.getElem?_eq_some_iff.1 h).1
    refine ⟨View.WF.viewWith (by rw [List.length_eraseIdx, List.length_eraseIdx, hw.len]), rfl, fun idx hi => ?_⟩
    refine ⟨idx.insertIdx axis 0, inShape_insert_zero h hi, ?_⟩
    have hl := hi.length_eq
    simp only [View.viewWith] at hl
    rw [List.length_eraseIdx, if_pos hax] at hl
    simp only [View.addr, View.viewWith]
    rw [byteOffset_insert_zero (by omega) (by rw [hw.len]; omega)]; ring
  · exact ⟨hw, AddrSub.refl v⟩

theorem addrSub_slice {v v' : View} (hw : v.WF) {axis len : Nat} {st start stop step : Int}
    (hs : step ≠ 0) (hlen : v.shape[axis]? = some len) (hst : v.strides[axis]? = some st)
    (hpos : 0 ≤ st ∨ start = 0)
    (hin : ∀ k, k < View.sliceLen start stop step →
      0 ≤ start + (k : Int) * step ∧ start + (k : Int) * step < len)
    (h : v.sliceAxis axis start stop step = some v') : v'.WF ∧ AddrSub v' v := by
  obtain ⟨w, h1, h2, h3, hitem, h4, h5, h6⟩ := sliceAxis_denote (α := Int) id hs hlen hst hpos
    (fun k hk => (hin k hk).1)
  rw [h, Option.some.injEq] at h1
  subst h1
  have hax : axis < v.shape.length := (List.getElem?_eq_some_iff.1 hlen).1
  refine ⟨h4 hw.len, hitem, fun idx hi => ⟨_, ?_, h6 idx hi⟩⟩
  rw [h2] at hi
  refine inShape_modify hax hi fun k hk => ?_
  have := hin k hk
  have e : v.shape.getD axis 0 = len := by simp [List.getD, hlen]
  rw [e]; omega

end Rumpy
