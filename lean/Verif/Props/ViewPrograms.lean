import Verif.Lemmas.Alias
import Verif.Lemmas.Index
import Verif.Props.Broadcast
import Verif.Props.InBounds
import Verif.Props.Reshape
import Verif.Props.Views
import Verif.Spec.Alias
/-!
# C45, first part: which element of the base each index of a view names
-/

namespace Props
open Spec Rumpy

/-- What each view operation means on an n-d array, whatever its elements are. -/
def ViewOp.spec : ViewOp → Nd β → Nd β
  | .transpose, a => a.transpose
  | .transposeAxes axes, a => a.transposeAxes axes
  | .reshape s, a => a.reshape s
  | .broadcastTo t, a => a.broadcast t
  | .squeeze, a => a.squeeze
  | .squeezeAxis ax, a => if a.shape[ax]? = some 1 then a.dropAxis ax else a
  | .expandDims ax, a => a.expandDims ax
  | .slice ax i j step, a =>
    let n := a.shape.getD ax 0
    let start := sliceStart n i step
    let stop := sliceStop n j step
    a.slice ax start step (if step > 0 then ((stop - start + step - 1) / step).toNat
      else ((start - stop - step - 1) / (-step)).toNat)
  | .flip ax, a => a.flip ax

/-- The operation is applied where the code agrees with NumPy: besides `Safe`, a reshape is of a
C-contiguous array and a squeeze leaves an axis (see the counterexamples of C08 and C10). -/
def ViewOp.Plain (op : ViewOp) (v : View) : Prop :=
  op.Safe v ∧ match op with
    | .reshape _ => v.cFlag = true
    | .squeeze => ∃ n ∈ v.shape, n ≠ 1
    | _ => True

/-- The index of the source that an index of the result names. -/
def ViewOp.source (op : ViewOp) (s : List Nat) : List Nat → List Nat := (op.spec (β := List Nat) ⟨s, id⟩).get

theorem ViewOp.spec_get (op : ViewOp) (a : Nd β) (i : List Nat) :
    (op.spec a).get i = a.get (op.source a.shape i) := by
  cases op <;> try rfl
  case squeezeAxis ax =>
    simp only [ViewOp.source, ViewOp.spec]
    split <;> rfl

theorem ViewOp.spec_shape (op : ViewOp) (a : Nd β) (b : Nd γ) (h : a.shape = b.shape) :
    (op.spec a).shape = (op.spec b).shape := by
  cases op <;> simp only [ViewOp.spec, h, Nd.transpose, Nd.transposeAxes, Nd.reshape, Nd.broadcast, Nd.squeeze,
    Nd.dropAxis, Nd.expandDims, Nd.slice, Nd.flip]
  case squeezeAxis ax => split <;> simp [h]

theorem getD_of_some {l : List β} {k : Nat} {x d : β} (h : l[k]? = some x) : l.getD k d = x := by
  simp [List.getD, h]

/-- Every plain view operation reads, at each index, the address of the index it names. -/
theorem ViewOp.addr_source {op : ViewOp} {v v' : View} (hw : v.WF) (hp : op.Plain v) (h : op.run v = some v') :
    v'.shape = (op.spec (v.denote id)).shape ∧
      ∀ i, InShape v'.shape i → InShape v.shape (op.source v.shape i) ∧ v'.addr i = v.addr (op.source v.shape i) := by
  have fin : ∀ {nd : Nd Int}, nd = op.spec (v.denote id) → (v'.denote id).Same nd →
      (∀ i, InShape v'.shape i → InShape v.shape (op.source v.shape i)) →
      v'.shape = (op.spec (v.denote id)).shape ∧
      ∀ i, InShape v'.shape i → InShape v.shape (op.source v.shape i) ∧ v'.addr i = v.addr (op.source v.shape i) := by
    intro nd e hs hin
    subst e
    exact ⟨hs.1, fun i hi => ⟨hin i hi, (hs.2 i hi).trans (op.spec_get _ i)⟩⟩
  obtain ⟨hsafe, hx⟩ := hp
  cases op with
  | transpose =>
    simp only [ViewOp.run, Option.some.injEq] at h; subst h
    exact fin rfl (C06_transpose id v hw) fun i hi => inShape_reverse.1 hi
  | transposeAxes axes =>
    obtain ⟨w, h1, _, h3⟩ := C06_transpose_axes id v hw axes hsafe
    simp only [ViewOp.run] at h
    rw [h, Option.some.injEq] at h1; subst h1
    refine fin rfl h3 fun i hi => ?_
    obtain ⟨hl, hlt, hnd, hmem⟩ := perm_range_facts hsafe
    have hs : v'.shape = axes.map fun k => v.shape.getD k 0 := h3.1
    show InShape v.shape ((List.range v.shape.length).map fun k => i.getD (axes.idxOf k) 0)
    rw [inShape_iff_getD]
    refine ⟨by simp, fun k hk => ?_⟩
    have hka : axes.idxOf k < axes.length := List.idxOf_lt_length_iff.2 (hmem k hk)
    rw [hs, inShape_iff_getD] at hi
    have := hi.2 (axes.idxOf k) (by simpa using hka)
    have e1 : ((List.range v.shape.length).map fun k => i.getD (axes.idxOf k) 0).getD k 0 = i.getD (axes.idxOf k) 0 := by
      apply getD_of_some
      simp [hk]
    have e2 : (axes.map fun k => v.shape.getD k 0).getD (axes.idxOf k) 0 = v.shape.getD k 0 := by
      apply getD_of_some
      simp [List.getElem?_eq_getElem hka]
    rw [e1]; rw [e2] at this; exact this
  | reshape s =>
    simp only [ViewOp.run] at h
    have hx : v.cFlag = true := hx
    obtain ⟨h1, h2, h3⟩ := C08_reshape_partial id v v' hw s hx h
    have hin : ∀ i, InShape s i → InShape v.shape ((indices v.shape).getD (rank s i) []) ∧
        v'.addr i = v.addr ((indices v.shape).getD (rank s i) []) := by
      intro i hi
      have hlt : rank s i < (indices v.shape).length := by rw [length_indices, ← h2]; exact rank_lt hi
      rw [List.getD_eq_getElem _ _ hlt]
      refine ⟨mem_indices.1 (List.getElem_mem hlt), ?_⟩
      have e1 := toList_getElem? (nd := v'.denote id) (idx := i) (by rw [← h1] at hi; exact hi)
      have e2 : (v.denote id).toList[rank s i]? = some (v.addr (indices v.shape)[rank s i]) := by
        show ((indices v.shape).map v.addr)[rank s i]? = _
        simp [hlt]
      rw [h3] at e1
      have e3 : rank (v'.denote id).shape i = rank s i := by
        show rank v'.shape i = _
        rw [h1]
      rw [e3, e2, Option.some.injEq] at e1
      exact e1.symm
    refine ⟨h1, fun i hi => ?_⟩
    rw [h1] at hi
    exact hin i hi
  | broadcastTo t =>
    obtain ⟨h1, h2, h3, h4⟩ := broadcastTo_addr hw h
    exact fin rfl (C09_broadcast_to id v v' hw t h).2 fun i hi => h4 i (by rw [← h2]; exact hi)
  | squeeze =>
    simp only [ViewOp.run, Option.some.injEq] at h; subst h
    have hq := C10_squeeze_partial id v hw hx
    exact fin rfl hq fun i hi => inShape_unsqueeze (by
      have : v.squeeze.shape = v.shape.filter (· ≠ 1) := hq.1
      rw [this] at hi; exact hi)
  | squeezeAxis ax =>
    simp only [ViewOp.run, Option.some.injEq] at h; subst h
    by_cases h1 : v.shape[ax]? = some 1
    · have hq := (C10_squeeze_axis id v hw ax h1).2
      refine fin ?_ hq fun i hi => ?_
      · show _ = if v.shape[ax]? = some 1 then _ else _
        rw [if_pos h1]
      · have : (v.squeezeAxis ax).shape = v.shape.eraseIdx ax := hq.1
        rw [this] at hi
        have e : ViewOp.source (.squeezeAxis ax) v.shape i = i.insertIdx ax 0 := by
          simp only [ViewOp.source, ViewOp.spec]
          rw [if_pos h1]; rfl
        rw [e]
        exact inShape_insert_zero h1 hi
    · have e0 : v.squeezeAxis ax = v := by unfold View.squeezeAxis; rw [if_neg h1]
      have e : ∀ i, ViewOp.source (.squeezeAxis ax) v.shape i = i := by
        intro i
        simp only [ViewOp.source, ViewOp.spec]
        rw [if_neg h1]; rfl
      rw [e0]
      refine ⟨?_, fun i hi => by rw [e i]; exact ⟨hi, rfl⟩⟩
      show _ = (if v.shape[ax]? = some 1 then _ else _ : Nd Int).shape
      rw [if_neg h1]; rfl
  | expandDims ax =>
    simp only [ViewOp.run] at h
    by_cases hle : ax ≤ v.shape.length
    · obtain ⟨w, h1, _, h3⟩ := C10_expand_dims id v hw ax hle
      rw [h, Option.some.injEq] at h1; subst h1
      refine fin rfl h3 fun i hi => inShape_eraseIdx_insert hle ?_
      have : v'.shape = v.shape.insertIdx ax 1 := h3.1
      rw [this] at hi; exact hi
    · rw [C10_expand_dims_error v ax (by omega)] at h; simp at h
  | slice ax i j step =>
    simp only [ViewOp.run, Option.bind_eq_bind, Option.bind_eq_some_iff] at h
    obtain ⟨len, hlen, h⟩ := h
    split at h
    · simp at h
    · rename_i hs0
      have hax : ax < v.strides.length := by rw [hw.len]; exact (List.getElem?_eq_some_iff.1 hlen).1
      have hst := List.getElem?_eq_getElem hax
      obtain ⟨w, n, h1, _, h3, h4, h5⟩ := C04_slice_partial id v hw ax len _ i j step hs0 hlen hst (hsafe _ hst)
      rw [h, Option.some.injEq] at h1; subst h1
      have hn := IsSliceLen.unique h3 (specLen_isSliceLen hs0)
      have hgd : v.shape.getD ax 0 = len := getD_of_some hlen
      refine fin ?_ h4 fun k hk => ?_
      · simp only [ViewOp.spec]
        have : (v.denote (id : Int → Int)).shape = v.shape := rfl
        rw [this, hgd, ← hn]
      · have hsh : v'.shape = v.shape.set ax n := h4.1
        have e : ViewOp.source (.slice ax i j step) v.shape k
            = k.modify ax fun m => (sliceStart len i step + m * step).toNat := by
          simp only [ViewOp.source, ViewOp.spec]
          rw [hgd]; rfl
        rw [hsh] at hk
        rw [e]
        refine inShape_modify (List.getElem?_eq_some_iff.1 hlen).1 hk fun m hm => ?_
        have := h5 m hm
        rw [hgd]; omega
  | flip ax =>
    simp only [ViewOp.run] at h
    by_cases hax : ax < v.shape.length
    · have hst := List.getElem?_eq_getElem (l := v.strides) (by rw [hw.len]; exact hax)
      obtain ⟨w, h1, _, h3, h4, _⟩ := C07_flip_partial id v hw ax _ hax hst (hsafe _ hst)
      rw [h, Option.some.injEq] at h1; subst h1
      refine fin rfl h3 fun i hi => ?_
      rw [h4] at hi
      show InShape v.shape (i.modify ax fun k => v.shape.getD ax 0 - 1 - k)
      refine inShape_modify (n := v.shape.getD ax 0) hax ?_ fun k hk => by omega
      rw [List.getD_eq_getElem _ _ hax, List.set_getElem_self]; exact hi
    · unfold View.flip at h
      rw [List.getElem?_eq_none (by omega)] at h
      simp at h

/-- Strides that are whole elements stay so. -/
theorem ViewOp.dvd {op : ViewOp} {v v' : View} (hw : v.WF) (hs : op.Safe v) (h : op.run v = some v')
    (hd : ∀ st ∈ v.strides, (v.item : Int) ∣ st) : v'.item = v.item ∧ ∀ st ∈ v'.strides, (v.item : Int) ∣ st := by
  have hslice : ∀ {ax : Nat} {a b c : Int}, v.sliceAxis ax a b c = some v' →
      v'.item = v.item ∧ ∀ st ∈ v'.strides, (v.item : Int) ∣ st := by
    intro ax a b c h
    unfold View.sliceAxis at h
    split at h
    · rename_i old _ hold _
      split at h
      · simp at h
      · simp only [Option.some.injEq] at h
        subst h
        refine ⟨rfl, fun st hst => ?_⟩
        simp only [View.viewWith] at hst
        rcases List.mem_or_eq_of_mem_set hst with hst | rfl
        · exact hd st hst
        · exact Dvd.dvd.mul_right (hd old (List.mem_of_getElem? hold)) _
    · simp at h
  cases op with
  | transpose =>
    simp only [ViewOp.run, Option.some.injEq] at h; subst h
    exact ⟨rfl, fun st hst => hd st (by simpa [View.transpose, View.viewWith] using hst)⟩
  | transposeAxes axes =>
    obtain ⟨_, h2, h3⟩ := addrSub_transposeAxes hw hs h
    refine ⟨h3.1, fun st hst => ?_⟩
    rw [h2] at hst
    obtain ⟨a, ha, rfl⟩ := List.mem_map.1 hst
    have : a < v.strides.length := by rw [hw.len]; exact (perm_range_facts hs).2.1 a ha
    rw [List.getD_eq_getElem _ _ this]
    exact hd _ (List.getElem_mem this)
  | reshape s =>
    simp only [ViewOp.run, View.reshape] at h
    split at h
    · simp at h
    · split at h
      · simp at h
      · simp only [Option.some.injEq] at h
        subst h
        refine ⟨rfl, fun st hst => ?_⟩
        simp only [View.viewWith] at hst
        split at hst
        · exact cStrides_dvd _ _ _ hst
        · exact fStrides_dvd _ _ _ hst
  | broadcastTo t =>
    refine ⟨broadcastTo_item h, ?_⟩
    exact broadcastTo_dvd h hd
  | squeeze =>
    simp only [ViewOp.run, Option.some.injEq] at h; subst h
    unfold View.squeeze
    dsimp only
    split
    · refine ⟨rfl, fun st hst => ?_⟩
      simp only [View.viewWith, List.mem_singleton] at hst
      subst hst; exact dvd_refl _
    · refine ⟨rfl, fun st hst => ?_⟩
      simp only [View.viewWith, List.mem_map, List.mem_filter] at hst
      obtain ⟨p, ⟨hp, _⟩, rfl⟩ := hst
      exact hd _ (List.of_mem_zip hp).2
  | squeezeAxis ax =>
    simp only [ViewOp.run, Option.some.injEq] at h; subst h
    unfold View.squeezeAxis
    split
    · exact ⟨rfl, fun st hst => hd st (List.mem_of_mem_eraseIdx hst)⟩
    · exact ⟨rfl, hd⟩
  | expandDims ax =>
    simp only [ViewOp.run, View.expandDims] at h
    split at h
    · simp at h
    · simp only [Option.some.injEq] at h
      subst h
      refine ⟨rfl, fun st hst => ?_⟩
      simp only [View.viewWith] at hst
      rcases List.eq_or_mem_of_mem_insertIdx hst with rfl | hst
      · exact dvd_refl _
      · exact hd st hst
  | slice ax i j step =>
    simp only [ViewOp.run, Option.bind_eq_bind, Option.bind_eq_some_iff] at h
    obtain ⟨len, hlen, h⟩ := h
    split at h
    · simp at h
    · exact hslice h
  | flip ax =>
    simp only [ViewOp.run, View.flip] at h
    split at h
    · simp at h
    · split at h
      · simp only [Option.some.injEq] at h; subst h; exact ⟨rfl, hd⟩
      · exact hslice h

end Props
