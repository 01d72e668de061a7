import Verif.Lemmas.InBounds
/-!
# C03 (flags along programs), C05: views never leave their buffer
-/

namespace Props
open Spec Rumpy

/-- Every byte of every element of the view lies in a buffer of `n` bytes. -/
def InBuf (n : Nat) (v : View) : Prop :=
  ∀ idx, InShape v.shape idx → 0 ≤ v.addr idx ∧ v.addr idx + v.item ≤ n

/-- One view operation of the public API. -/
inductive ViewOp where
  | transpose
  | transposeAxes (axes : List Nat)
  | reshape (shape : List Nat)
  | broadcastTo (shape : List Nat)
  | squeeze
  | squeezeAxis (axis : Nat)
  | expandDims (axis : Nat)
  /-- `a[..., i:j:step, ...]` with Python's own normalisation of the bounds. -/
  | slice (axis : Nat) (i j : Option Int) (step : Int)
  | flip (axis : Nat)

/-- Running one operation; `none` is an error. -/
def ViewOp.run : ViewOp → View → Option View
  | .transpose, v => some v.transpose
  | .transposeAxes axes, v => v.transposeAxes axes
  | .reshape s, v => v.reshape s
  | .broadcastTo t, v => v.broadcastTo t
  | .squeeze, v => some v.squeeze
  | .squeezeAxis ax, v => some (v.squeezeAxis ax)
  | .expandDims ax, v => v.expandDims ax
  | .slice ax i j step, v => do
    let len ← v.shape[ax]?
    if step = 0 then none
    else v.sliceAxis ax (sliceStart len i step) (sliceStop len j step) step
  | .flip ax, v => v.flip ax

/-- The operation is applied where the code is known to be right: axes passed to
`transpose` are a permutation, and a slice or flip acts on an axis that is not reversed. -/
def ViewOp.Safe : ViewOp → View → Prop
  | .transposeAxes axes, v => axes.Perm (List.range v.shape.length)
  | .slice ax _ _ _, v => ∀ st, v.strides[ax]? = some st → 0 ≤ st
  | .flip ax, v => ∀ st, v.strides[ax]? = some st → 0 ≤ st
  | _, _ => True

/-- Running a program, requiring every step to be safe. -/
inductive SafeRun : View → List ViewOp → View → Prop where
  | nil (v) : SafeRun v [] v
  | cons {v w z op ops} : op.Safe v → op.run v = some w → SafeRun w ops z → SafeRun v (op :: ops) z

theorem ViewOp.addrSub {op : ViewOp} {v v' : View} (hw : v.WF) (hs : op.Safe v)
    (h : op.run v = some v') : v'.WF ∧ AddrSub v' v := by
  cases op with
  | transpose =>
    simp only [ViewOp.run, Option.some.injEq] at h; subst h
    exact ⟨View.WF.viewWith (by simp [hw.len]), addrSub_transpose hw⟩
  | transposeAxes axes =>
    obtain ⟨h1, _, h2⟩ := addrSub_transposeAxes hw hs h
    exact ⟨h1, h2⟩
  | reshape s => obtain ⟨h1, _, h2⟩ := addrSub_reshape hw h; exact ⟨h1, h2⟩
  | broadcastTo t => exact addrSub_broadcastTo hw h
  | squeeze => simp only [ViewOp.run, Option.some.injEq] at h; subst h; exact addrSub_squeeze hw
  | squeezeAxis ax => simp only [ViewOp.run, Option.some.injEq] at h; subst h; exact addrSub_squeezeAxis hw ax
  | expandDims ax => exact addrSub_expandDims hw h
  | slice ax i j step =>
    simp only [ViewOp.run, Option.bind_eq_bind, Option.bind_eq_some_iff] at h
    obtain ⟨len, hlen, h⟩ := h
    split at h
    · simp at h
    · rename_i hs0
      have hax : ax < v.strides.length := by rw [hw.len]; exact (List.getElem?_eq_some_iff.1 hlen).1
      refine addrSub_slice hw hs0 hlen (List.getElem?_eq_getElem hax)
        (Or.inl (hs _ (List.getElem?_eq_getElem hax))) ?_ h
      intro k hk
      exact slice_positions hs0 (sliceLen_spec hs0) hk
  | flip ax =>
    simp only [ViewOp.run, View.flip] at h
    split at h
    · simp at h
    · rename_i len hlen
      split at h
      · simp only [Option.some.injEq] at h; subst h; exact ⟨hw, AddrSub.refl v⟩
      · have hax : ax < v.strides.length := by rw [hw.len]; exact (List.getElem?_eq_some_iff.1 hlen).1
        refine addrSub_slice hw (by decide) hlen (List.getElem?_eq_getElem hax)
          (Or.inl (hs _ (List.getElem?_eq_getElem hax))) ?_ h
        intro k hk
        have := (sliceLen_spec (start := (len : Int) - 1) (stop := -1) (step := -1) (by decide) k).1 hk
        rw [if_neg (by decide)] at this
        omega

theorem InBuf.of_addrSub {n : Nat} {v v' : View} (h : AddrSub v' v) (hb : InBuf n v) : InBuf n v' := by
  intro idx hi
  obtain ⟨idx', h1, h2⟩ := h.2 idx hi
  have := hb idx' h1
  rw [h2, h.1]; exact this

/-- C05: a fresh array lies in its own allocation. -/
theorem C05_fresh_in_buffer (shape : List Nat) (item : Nat) :
    (View.fresh shape item).WF ∧ InBuf (size shape * item) (View.fresh shape item) := by
  refine ⟨View.WF.fresh shape item, fun idx hi => ?_⟩
  simp only [View.fresh, View.addr] at hi ⊢
  rw [byteOffset_cStrides item shape idx hi.length_eq]
  have h := rank_lt hi
  have h2 : item * (rank shape idx + 1) ≤ item * size shape := Nat.mul_le_mul_left _ h
  have h3 : item * (rank shape idx + 1) = item * rank shape idx + item := by ring
  have h4 : size shape * item = item * size shape := Nat.mul_comm _ _
  constructor <;> omega

/-- C05, proved part: after any sequence of view operations, of any length, starting from an
array inside its buffer, every element is still inside the buffer, provided no step slices or
flips an axis that is already reversed and axes arguments are permutations.  Both provisos
are needed: see the counterexamples. -/
theorem C05_views_in_buffer_partial (n : Nat) (v z : View) (ops : List ViewOp) (hw : v.WF)
    (hb : InBuf n v) (h : SafeRun v ops z) : z.WF ∧ InBuf n z := by
  induction h with
  | nil v => exact ⟨hw, hb⟩
  | cons hs hr _ ih =>
    obtain ⟨h1, h2⟩ := ViewOp.addrSub hw hs hr
    exact ih h1 (hb.of_addrSub h2)

/-- The operations that do not reverse an axis. -/
def ViewOp.Forward : ViewOp → View → Prop
  | .transposeAxes axes, v => axes.Perm (List.range v.shape.length)
  | .slice _ _ _ step, _ => 0 < step
  | .flip _, _ => False
  | _, _ => True

/-- Running a program of operations that do not reverse an axis. -/
inductive ForwardRun : View → List ViewOp → View → Prop where
  | nil (v) : ForwardRun v [] v
  | cons {v w z op ops} : op.Forward v → op.run v = some w → ForwardRun w ops z →
      ForwardRun v (op :: ops) z

theorem ViewOp.forward_nonneg {op : ViewOp} {v v' : View} (hw : v.WF) (hf : op.Forward v)
    (hp : ∀ st ∈ v.strides, 0 ≤ st) (h : op.run v = some v') :
    op.Safe v ∧ ∀ st ∈ v'.strides, 0 ≤ st := by
  cases op with
  | transpose =>
    simp only [ViewOp.run, Option.some.injEq] at h; subst h
    exact ⟨trivial, fun st hst => hp st (by simpa [View.transpose, View.viewWith] using hst)⟩
  | transposeAxes axes =>
    obtain ⟨_, h2, _⟩ := addrSub_transposeAxes hw hf h
    refine ⟨hf, fun st hst => ?_⟩
    rw [h2] at hst
    obtain ⟨a, ha, rfl⟩ := List.mem_map.1 hst
    have : a < v.strides.length := by rw [hw.len]; exact (perm_range_facts hf).2.1 a ha
    rw [List.getD_eq_getElem _ _ this]
    exact hp _ (List.getElem_mem this)
  | reshape s => obtain ⟨_, h2, _⟩ := addrSub_reshape hw h; exact ⟨trivial, h2⟩
  | broadcastTo t => exact ⟨trivial, broadcastTo_nonneg h hp⟩
  | squeeze => simp only [ViewOp.run, Option.some.injEq] at h; subst h; exact ⟨trivial, squeeze_nonneg hp⟩
  | squeezeAxis ax =>
    simp only [ViewOp.run, Option.some.injEq] at h; subst h
    refine ⟨trivial, fun st hst => ?_⟩
    unfold View.squeezeAxis at hst
    split at hst
    · exact hp st (List.mem_of_mem_eraseIdx hst)
    · exact hp st hst
  | expandDims ax =>
    refine ⟨trivial, fun st hst => ?_⟩
    simp only [ViewOp.run, View.expandDims] at h
    split at h
    · simp at h
    · rename_i hle
      simp only [Option.some.injEq] at h
      subst h
      simp only [View.viewWith] at hst
      rcases List.eq_or_mem_of_mem_insertIdx hst with rfl | hst
      · positivity
      · exact hp st hst
  | slice ax i j step =>
    refine ⟨fun st hst => hp st (List.mem_of_getElem? hst), fun st hst => ?_⟩
    simp only [ViewOp.run, Option.bind_eq_bind, Option.bind_eq_some_iff] at h
    obtain ⟨len, hlen, h⟩ := h
    split at h
    · simp at h
    · unfold View.sliceAxis at h
      split at h
      · rename_i old _ hold _
        split at h
        · simp at h
        · simp only [Option.some.injEq] at h
          subst h
          simp only [View.viewWith] at hst
          rcases List.mem_or_eq_of_mem_set hst with hst | rfl
          · exact hp st hst
          · have h1 := hp old (List.mem_of_getElem? hold)
            have hf' : 0 < step := hf
            positivity
      · simp at h
  | flip ax => exact False.elim hf

/-- C05: starting from a fresh array, every program of transpositions, reshapes, broadcasts,
squeezes, axis insertions and forward slices stays inside the allocation, unconditionally. -/
theorem C05_forward_programs (shape : List Nat) (item : Nat) (ops : List ViewOp) (z : View)
    (h : ForwardRun (View.fresh shape item) ops z) : InBuf (size shape * item) z := by
  obtain ⟨hw, hb⟩ := C05_fresh_in_buffer shape item
  have hp : ∀ st ∈ (View.fresh shape item).strides, 0 ≤ st := by
    have : ∀ t : List Nat, ∀ st ∈ cStrides t item, (0 : Int) ≤ st := by
      intro t
      induction t with
      | nil => intro st hst; simp [cStrides, cStridesAux] at hst
      | cons n t ih =>
        intro st hst
        rw [cStrides_cons] at hst
        rcases List.mem_cons.1 hst with rfl | hst
        · positivity
        · exact ih st hst
    exact this shape
  generalize View.fresh shape item = v0 at h hw hb hp
  revert hw hb hp
  induction h with
  | nil v => intro _ hb _; exact hb
  | cons hf hr _ ih =>
    intro hw hb hp
    obtain ⟨hs, hp'⟩ := ViewOp.forward_nonneg hw hf hp hr
    obtain ⟨h1, h2⟩ := ViewOp.addrSub hw hs hr
    exact ih h1 (hb.of_addrSub h2) hp'

/-- A program that meets the hypotheses and does something. -/
example : ∃ z, ForwardRun (View.fresh [4, 6] 8)
    [.slice 1 (some 1) none 2, .transpose, .expandDims 0, .broadcastTo [5, 3, 4]] z ∧
    z.shape = [5, 3, 4] ∧ z.strides = [0, 16, 48] ∧ z.offset = 8 :=
  ⟨⟨8, [5, 3, 4], [0, 16, 48], 8, false, false⟩,
    .cons (by simp [ViewOp.Forward]) (w := ⟨8, [4, 3], [48, 16], 8, false, false⟩) (by decide)
      (.cons trivial (w := ⟨8, [3, 4], [16, 48], 8, false, false⟩) (by decide)
        (.cons trivial (w := ⟨8, [1, 3, 4], [8, 16, 48], 8, false, false⟩) (by decide)
          (.cons trivial (by decide) (.nil _)))), rfl, rfl, rfl⟩

/-- C05 fails without the proviso on reversed axes: `flip` twice on two 1-byte elements
addresses bytes 2 and 3 of a 2-byte buffer. -/
theorem C05_flip_counterexample :
    ∃ w z, ViewOp.run (.flip 0) (View.fresh [2] 1) = some w ∧ ViewOp.run (.flip 0) w = some z ∧
      InShape z.shape [1] ∧ z.addr [1] = 3 ∧ ¬ InBuf 2 z := by
  refine ⟨⟨1, [2], [-1], 1, false, false⟩, ⟨2, [2], [1], 1, true, true⟩, by decide, by decide,
    by decide, by decide, fun h => ?_⟩
  exact absurd (h [1] (by decide)).2 (by decide)

/-- C05 fails when `transpose` is given a repeated axis, which the code does not check:
`transpose(a, (0, 0))` on a 3x1 array addresses byte 4 of a 3-byte buffer. -/
theorem C05_transpose_repeated_axis_counterexample :
    ∃ z, ViewOp.run (.transposeAxes [0, 0]) (View.fresh [3, 1] 1) = some z ∧
      InShape z.shape [2, 2] ∧ z.addr [2, 2] = 4 ∧ ¬ InBuf 3 z := by
  refine ⟨⟨0, [3, 3], [1, 1], 1, false, false⟩, by decide, by decide, by decide, fun h => ?_⟩
  exact absurd (h [2, 2] (by decide)).2 (by decide)

/-- C03 along programs: whatever view operations are applied (no proviso at all for the
flags), the flags of the result tell the truth whenever strides and shape have equal length. -/
theorem C03_view_flags (v : View) (d : Int) (shape : List Nat) (strides : List Int)
    (hl : strides.length = shape.length) (idx : List Nat) (hi : InShape shape idx) :
    ((v.viewWith d shape strides).cFlag = true →
      (v.viewWith d shape strides).addr idx = v.offset + d + (v.item * rank shape idx : Nat)) ∧
    ((v.viewWith d shape strides).fFlag = true →
      (v.viewWith d shape strides).addr idx = v.offset + d + (v.item * rankF shape idx : Nat)) := by
  constructor
  · intro h
    simp only [View.addr, View.viewWith] at h ⊢
    rw [isC_sound hl h hi]
  · intro h
    simp only [View.addr, View.viewWith] at h ⊢
    rw [isFAux_sound hl h idx hi]; push_cast; ring

end Props
