import Verif.Lemmas.ArgReduce
import Mathlib.Order.OrderDual
import Mathlib.Data.BitVec
/-!
# C19: argmax and argmin
-/

namespace Props
open Spec Rumpy

theorem argFull_spec [LinearOrder κ] (typed : Bool) (key : α → κ) (init : α) (hinit : ∀ a, key init ≤ key a)
    (mem : Int → α) {v : View} (hw : v.WF) (hn : size v.shape ≠ 0) :
    FirstMax ((v.denote mem).toList.map key) (argFull typed (gtKey key) init mem v) := by
  unfold argFull
  rw [sizeOf_eq, if_neg hn]
  have hlen : v.addrs.length = size v.shape := by rw [addrs_eq hw]; simp [length_indices]
  have hlist : ∀ d : Nat → α, (∀ i p, v.addrs[i]? = some p → mem p = d i) →
      (v.denote mem).toList.map key = (List.range (size v.shape)).map fun i => key (d i) := by
    intro d hd
    rw [← addrs_map hw]
    apply List.ext_getElem?
    intro k
    by_cases hk : k < v.addrs.length
    · simp [hk, ← hlen, hd k _ (List.getElem?_eq_getElem hk)]
    · simp [← hlen, hk]
  split
  · next hc =>
    have hc : v.cFlag = true := by simp at hc; exact hc.2
    have hd : ∀ (i : Nat) p, v.addrs[i]? = some p → mem p = mem (v.offset + (i : Int) * v.item) := by
      intro i p hp
      have hk : i < size v.shape := by
        rw [← hlen]; exact (List.getElem?_eq_some_iff.1 hp).1
      obtain ⟨idx, hi, rfl⟩ := exists_rank hk
      rw [addrs_eq hw, List.getElem?_map, indices_getElem?_rank hi] at hp
      simp only [Option.map_some, Option.some.injEq] at hp
      rw [← hp, cFlag_addr hw hc hi]
    rw [hlist _ hd]
    exact argContiguous_firstMax key _ hn
  · rw [argStrided_eq (d := fun i => mem (v.addrs.getD i 0)), hlist (fun i => mem (v.addrs.getD i 0)), hlen]
    · exact argScan_firstMax key _ _ (hinit _) hn
    · intro i p hp; simp [List.getD, hp]
    · intro i p hp; simp [List.getD, hp]

theorem firstMin_iff [LinearOrder κ] (l : List κ) (k : Nat) : FirstMin l k ↔ FirstMax (l.map OrderDual.toDual) k := by
  unfold FirstMin FirstMax
  simp

/-- C19: `argmax` of a non-empty array is the first row-major position of its largest element, for
every shape and layout, on the typed and on the generic path. The order is given by the number
`key a` an element stands for; `init` is the smallest value of the type. -/
theorem C19_argmax {α κ : Type} [LinearOrder κ] (typed : Bool) (key : α → κ) (init : α) (hinit : ∀ a, key init ≤ key a)
    (mem : Int → α) (v : View) (hw : v.WF) (hn : size v.shape ≠ 0) :
    FirstMax ((v.denote mem).toList.map key) (argFull typed (gtKey key) init mem v) :=
  argFull_spec typed key init hinit mem hw hn

/-- C19: `argmin` of a non-empty array is the first row-major position of its smallest element. -/
theorem C19_argmin {α κ : Type} [LinearOrder κ] (typed : Bool) (key : α → κ) (init : α) (hinit : ∀ a, key a ≤ key init)
    (mem : Int → α) (v : View) (hw : v.WF) (hn : size v.shape ≠ 0) :
    FirstMin ((v.denote mem).toList.map key) (argFull typed (ltKey key) init mem v) := by
  rw [firstMin_iff, List.map_map]
  exact argFull_spec (κ := κᵒᵈ) typed (fun a => OrderDual.toDual (key a)) init hinit mem hw hn

/-- The position is determined by the elements: layout does not matter. -/
theorem C19_layout_independent {α κ : Type} [LinearOrder κ] (key : α → κ) (init : α) (hinit : ∀ a, key init ≤ key a)
    (mem mem' : Int → α) (v v' : View) (hw : v.WF) (hw' : v'.WF) (hs : (v.denote mem).Same (v'.denote mem'))
    (hn : size v.shape ≠ 0) (t t' : Bool) :
    argFull t (gtKey key) init mem v = argFull t' (gtKey key) init mem' v' := by
  have hl : (v.denote mem).toList = (v'.denote mem').toList := by
    unfold Nd.toList
    rw [← hs.1]
    exact List.map_congr_left fun i hi => hs.2 i (mem_indices.1 hi)
  have h1 := C19_argmax t key init hinit mem v hw hn
  have h2 := C19_argmax t' key init hinit mem' v' hw' (by
    have : v.shape = v'.shape := hs.1
    rw [← this]; exact hn)
  rw [hl] at h1
  exact firstMax_unique h1 h2

/-- A reversed view with a tie: int16 values 3, 1, 3 (seen from the end), smallest value `-32768`. -/
example : (∀ a : BitVec 16, (BitVec.intMin 16).toInt ≤ a.toInt) ∧
    argFull true (gtKey BitVec.toInt) (BitVec.intMin 16)
      (fun p => if p = 2 then 1#16 else 3#16) ⟨4, [3], [-2], 2, false, false⟩ = 0 ∧
    argFull true (ltKey BitVec.toInt) (BitVec.intMax 16)
      (fun p => if p = 2 then 1#16 else 3#16) ⟨4, [3], [-2], 2, false, false⟩ = 1 := by
  refine ⟨fun a => ?_, by decide, by decide⟩
  have := BitVec.le_toInt a
  simpa [BitVec.toInt_intMin] using this

/-- With a NaN the result depends on the layout: `argmax([nan, 1, 2])` is 0 when the array is
contiguous and 2 when it is a strided view (NumPy: 0, the position of the NaN). -/
theorem C19_nan_counterexample :
    let gt : Option Int → Option Int → Bool := fun v b =>
      match v, b with
      | some x, some y => decide (y < x)
      | _, _ => false
    let mem : Int → Option Int := fun p => if p = 0 then none else some p
    argFull true gt (some (-1000)) mem ⟨0, [3], [1], 1, true, true⟩ = 0 ∧
    argFull true gt (some (-1000)) (fun p => mem (p / 2)) ⟨0, [3], [2], 1, false, false⟩ = 2 := by
  decide

/-! ### Along an axis -/

/-- The keys along the lane through `idx`. -/
def laneKeys (key : α → κ) (a : Nd α) (axis : Nat) (idx : List Nat) : List κ :=
  (List.range (a.shape.getD axis 0)).map fun j => key (a.get (idx.insertIdx axis j))

/-- C19 (partial): along an axis, whenever the typed path returns, each remaining index holds the
first position of the largest element of its lane. Missing: the general strided case, where the
call does not return (`C19_axis_fault_iff`), and the shape of the result for a 1-d array. -/
theorem C19_argmax_axis_partial {α κ : Type} [LinearOrder κ] (key : α → κ) (init : α) (hinit : ∀ a, key init ≤ key a)
    (mem : Int → α) (v : View) (hw : v.WF) (axis : Nat) (hax : axis < v.shape.length) (hn : v.shape.getD axis 0 ≠ 0)
    (r : Arr Nat) (hr : argAxis (gtKey key) init mem v axis = .ok r) :
    r.data.length = size (v.shape.eraseIdx axis) ∧
    (2 ≤ v.shape.length → r.shape = v.shape.eraseIdx axis) ∧
    ∀ idx, InShape (v.shape.eraseIdx axis) idx → ∃ k, r.data[rank (v.shape.eraseIdx axis) idx]? = some k ∧
      FirstMax (laneKeys key (v.denote mem) axis idx) k := by
  obtain ⟨hs, f, hd, hf⟩ := argAxis_spec key init hinit mem hw hax hn hr
  refine ⟨by rw [hd]; simp [length_indices], ?_, ?_⟩
  · intro h
    rw [hs, if_neg]
    intro he
    have := congrArg List.length (List.isEmpty_iff.1 he)
    rw [List.length_eraseIdx, if_pos hax] at this
    simp at this
    omega
  · intro idx hi
    exact ⟨f idx, by rw [hd, List.getElem?_map, indices_getElem?_rank hi]; rfl, hf idx hi⟩

/-- C19 (partial): the same for `argmin`. -/
theorem C19_argmin_axis_partial {α κ : Type} [LinearOrder κ] (key : α → κ) (init : α) (hinit : ∀ a, key a ≤ key init)
    (mem : Int → α) (v : View) (hw : v.WF) (axis : Nat) (hax : axis < v.shape.length) (hn : v.shape.getD axis 0 ≠ 0)
    (r : Arr Nat) (hr : argAxis (ltKey key) init mem v axis = .ok r) :
    r.data.length = size (v.shape.eraseIdx axis) ∧
    (2 ≤ v.shape.length → r.shape = v.shape.eraseIdx axis) ∧
    ∀ idx, InShape (v.shape.eraseIdx axis) idx → ∃ k, r.data[rank (v.shape.eraseIdx axis) idx]? = some k ∧
      FirstMin (laneKeys key (v.denote mem) axis idx) k := by
  obtain ⟨h1, h2, h3⟩ := C19_argmax_axis_partial (κ := κᵒᵈ) (fun a => OrderDual.toDual (key a)) init hinit mem v hw axis
    hax hn r hr
  refine ⟨h1, h2, fun idx hi => ?_⟩
  obtain ⟨k, hk, hm⟩ := h3 idx hi
  refine ⟨k, hk, ?_⟩
  rw [firstMin_iff]
  simpa [laneKeys, Function.comp_def] using hm

/-- C19: exactly when the typed axis path faults: a non-empty array that is not C-contiguous, an
axis longer than one whose stride is not the item size. -/
theorem C19_axis_fault_iff (gt : α → α → Bool) (init : α) (mem : Int → α) (v : View) (axis : Nat) :
    argAxis gt init mem v axis = .panic ↔
      size (v.shape.eraseIdx axis) ≠ 0 ∧ 1 < v.shape.getD axis 0 ∧ v.strides.getD axis 0 ≠ v.item ∧
        v.cFlag = false := by
  unfold argAxis
  dsimp only
  rw [sizeOf_eq, outShape_size]
  by_cases h0 : size (v.shape.eraseIdx axis) = 0 ∨ v.shape.getD axis 0 = 0
  · rw [if_pos h0]
    constructor
    · intro h; simp at h
    · rintro ⟨a, b, -⟩; omega
  · rw [if_neg h0]
    push Not at h0
    by_cases h1 : v.strides.getD axis 0 = v.item
    · rw [if_pos h1]
      constructor
      · intro h; split at h <;> simp at h
      · rintro ⟨-, -, h, -⟩; exact absurd h1 h
    · rw [if_neg h1]
      by_cases hc : v.cFlag = true
      · simp [hc]
      · rw [if_neg hc]
        by_cases h4 : 1 < v.shape.getD axis 0
        · rw [if_pos h4]
          simp only [true_iff]
          exact ⟨h0.1, h4, h1, by simpa using hc⟩
        · rw [if_neg h4]
          simp only [reduceCtorEq, false_iff]
          tauto

/-- C19: `a.T.argmax(axis=1)` of a C-contiguous 2x2 array is such a case. -/
theorem C19_axis_fault_counterexample :
    argAxis (gtKey id) (-1000) (fun p => p) ⟨0, [2, 2], [1, 2], 1, false, true⟩ 1 = .panic ∧
      Rumpy.View.WF ⟨0, [2, 2], [1, 2], 1, false, true⟩ := by
  refine ⟨by decide, by decide, by decide, by decide⟩

/-- C19: the generic axis path (int8, bool, float16, ...) works for every layout. -/
theorem C19_argmax_axis_slow {α κ : Type} [LinearOrder κ] (key : α → κ) (mem : Int → α) (v : View) (hw : v.WF)
    (axis : Nat) (hax : axis < v.shape.length) (hn : v.shape.getD axis 0 ≠ 0) :
    let r := argAxisSlow (gtKey key) mem v axis
    r.data.length = size (v.shape.eraseIdx axis) ∧
    ∀ idx, InShape (v.shape.eraseIdx axis) idx → ∃ k, r.data[rank (v.shape.eraseIdx axis) idx]? = some k ∧
      FirstMax (laneKeys key (v.denote mem) axis idx) k := by
  intro r
  have hd : r.data = _ := argAxisSlow_eq (gtKey key) mem hw hax hn
  refine ⟨by rw [hd]; simp [length_indices], ?_⟩
  intro idx hi
  exact ⟨_, by rw [hd, List.getElem?_map, indices_getElem?_rank hi]; rfl, argContiguous_firstMax key _ hn⟩

/-- C19: the same for `argmin`. -/
theorem C19_argmin_axis_slow {α κ : Type} [LinearOrder κ] (key : α → κ) (mem : Int → α) (v : View) (hw : v.WF)
    (axis : Nat) (hax : axis < v.shape.length) (hn : v.shape.getD axis 0 ≠ 0) :
    let r := argAxisSlow (ltKey key) mem v axis
    r.data.length = size (v.shape.eraseIdx axis) ∧
    ∀ idx, InShape (v.shape.eraseIdx axis) idx → ∃ k, r.data[rank (v.shape.eraseIdx axis) idx]? = some k ∧
      FirstMin (laneKeys key (v.denote mem) axis idx) k := by
  intro r
  obtain ⟨h1, h3⟩ := C19_argmax_axis_slow (κ := κᵒᵈ) (fun a => OrderDual.toDual (key a)) mem v hw axis hax hn
  refine ⟨h1, fun idx hi => ?_⟩
  obtain ⟨k, hk, hm⟩ := h3 idx hi
  refine ⟨k, hk, ?_⟩
  rw [firstMin_iff]
  simpa [laneKeys, Function.comp_def] using hm

/-- The three working paths on 2x3 arrays: last axis, first axis, and a contiguous lane of a
transposed view. -/
example :
    let mem : Int → Int := fun p => [4, 9, 9, 5, 9, 2].getD p.toNat 0
    argAxis (gtKey id) (-1000) mem (View.fresh [2, 3] 1) 1 = .ok ⟨[2], [1, 1]⟩ ∧
    argAxis (gtKey id) (-1000) mem (View.fresh [2, 3] 1) 0 = .ok ⟨[3], [1, 0, 0]⟩ ∧
    argAxis (gtKey id) (-1000) mem ⟨0, [3, 2], [1, 3], 1, false, true⟩ 0 = .ok ⟨[2], [1, 1]⟩ ∧
    argAxisSlow (gtKey id) mem ⟨0, [3, 2], [1, 3], 1, false, true⟩ 1 = ⟨[3], [1, 0, 0]⟩ := by
  decide

end Props
