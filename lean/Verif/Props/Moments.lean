import Verif.Lemmas.Moments
/-! # C72: means and moments, axis arguments, several axes, keepdims -/

namespace Props
open Spec Rumpy

/-! ### The axis argument -/

/-- C72: one axis number is accepted exactly when it is in range, and negative numbers count from the end. -/
theorem C72_axis (ndim : Nat) (a : Int) (ks : List Nat) :
    parseAxis ndim (.one a) = some (some ks) ↔ ∃ k, ks = [k] ∧ IsAxis ndim a k := by
  unfold parseAxis
  dsimp only
  constructor
  · intro h
    rw [Option.map_eq_some_iff] at h
    obtain ⟨k, hk, h⟩ := h
    exact ⟨k, (Option.some.inj h).symm, checkedAxis_iff.1 hk⟩
  · rintro ⟨k, rfl, hk⟩
    rw [checkedAxis_iff.2 hk]; rfl

/-- C72: a tuple of axes is accepted exactly when it is not empty and every entry is in range. -/
theorem C72_axes_accepted (ndim : Nat) (l : List Int) (ks : List Nat) :
    parseAxis ndim (.many l) = some (some ks) ↔ l ≠ [] ∧ List.Forall₂ (IsAxis ndim) l ks := by
  unfold parseAxis
  dsimp only
  constructor
  · intro h
    split at h
    · exact absurd h (by simp)
    · next ks' hk =>
      split at h
      · exact absurd h (by simp)
      · next he =>
        cases h
        have h2 := mapM_checked.1 hk
        refine ⟨?_, h2⟩
        rintro rfl
        cases h2
        exact he rfl
  · rintro ⟨h0, h2⟩
    rw [mapM_checked.2 h2]
    dsimp only
    rw [if_neg]
    intro he
    rw [List.isEmpty_iff] at he
    subst he
    cases h2
    exact h0 rfl

/-- C72: every other axis argument is an error, and no axis at all means the whole array. -/
theorem C72_axes_rejected (full : Held α → α) (step : Held α → Nat → Option (Arr α)) (item : Nat) (zero : α) (h : Held α) (l : List Int)
    (hb : l = [] ∨ ∃ a ∈ l, ∀ k, ¬ IsAxis h.view.shape.length a k) :
    reduceFn full step item zero h (.many l) = .error ∧ reduceFn full step item zero h .none = .ok (.scalar (full h)) := by
  refine ⟨?_, rfl⟩
  unfold reduceFn
  rcases hp : parseAxis h.view.shape.length (.many l) with _ | _ | ks
  · rfl
  · exfalso
    unfold parseAxis at hp
    dsimp only at hp
    split at hp
    · exact absurd hp (by simp)
    · split at hp <;> simp at hp
  · exfalso
    obtain ⟨h0, h2⟩ := (C72_axes_accepted _ _ _).1 hp
    rcases hb with hb | ⟨a, ha, hb⟩
    · exact h0 hb
    · obtain ⟨i, hi⟩ := List.getElem?_of_mem ha
      obtain ⟨hil, hi⟩ := List.getElem?_eq_some_iff.1 hi
      have := List.forall₂_iff_get.1 h2
      have h3 := this.2 i hil (by rw [← this.1]; exact hil)
      rw [List.get_eq_getElem, hi] at h3
      exact hb _ h3

example : parseAxis 3 (.many [-1, 0]) = some (some [2, 0]) := by decide
example : parseAxis 3 (.many [3]) = none ∧ parseAxis 3 (.many []) = none ∧ parseAxis 3 (.one (-4)) = none := by decide

/-! ### Several axes -/

theorem reduceFn_many {full : Held α → α} {step : Held α → Nat → Option (Arr α)} {item : Nat} {zero : α} {h : Held α} {l : List Int} {ks : List Nat}
    (h0 : l ≠ []) (hk : List.Forall₂ (IsAxis h.view.shape.length) l ks) {r : Held α} (hr : reduceAxes step item zero h ks = some r) :
    reduceFn full step item zero h (.many l) = .ok (.array r) := by
  unfold reduceFn
  rw [(C72_axes_accepted _ _ _).2 ⟨h0, hk⟩]
  rcases ks with _ | ⟨a, _ | ⟨b, ks⟩⟩
  · dsimp only
    rw [hr]
  · dsimp only
    have : (step h a).map (fun x => Held.of x item zero) = some r := by
      have h1 : reduceAxes step item zero h [a] = (do let x ← (step h a).map fun x => Held.of x item zero; some x) := rfl
      rw [hr] at h1
      rw [h1]
      cases step h a <;> rfl
    rw [Option.map_eq_some_iff] at this
    obtain ⟨x, hx, rfl⟩ := this
    rw [hx]
  · dsimp only
    rw [hr]

theorem isAxis_lt {ndim : Nat} {l : List Int} {ks : List Nat} (hk : List.Forall₂ (IsAxis ndim) l ks) : ∀ k ∈ ks, k < ndim := by
  induction hk with
  | nil => simp
  | cons h1 _ ih =>
    intro k hk
    rcases List.mem_cons.1 hk with rfl | hk
    · exact h1.1
    · exact ih k hk

/-- C72 (partial): a reduction over a tuple of distinct axes that leaves an axis standing gives, at each remaining
index, the reduction of all the elements that differ from it only along the tuple; for every operation that
is associative and commutative with identity `e`, in any layout, and in whatever order the axes are named.
Missing: tuples that name all the axes (shape `(1,)` instead of `()`) and repeated axes, which must be refused. -/
theorem C72_axes_partial {α : Type} (op : α → α → α) (e : α) (assoc : ∀ a b c, op (op a b) c = op a (op b c)) (comm : ∀ a b, op a b = op b a)
    (ident : ∀ a, op e a = a) (full : Held α → α) (item : Nat) (hitem : 0 < item) (zero : α) (h : Held α) (hw : h.view.WF) (hi : 0 < h.view.item)
    (l : List Int) (ks : List Nat) (h0 : l ≠ []) (hk : List.Forall₂ (IsAxis h.view.shape.length) l ks) (hn : ks.Nodup)
    (hlen : ks.length < h.view.shape.length) :
    ∃ r, reduceFn full (reduceStep op e) item zero h (.many l) = .ok (.array r) ∧ r.nd.Same (h.nd.collapse (fun l => l.foldl op e) ks) := by
  have hne : ks ≠ [] := by rintro rfl; cases hk; exact h0 rfl
  obtain ⟨r, h1, -, h3⟩ := reduceAxes_ok (reduceStep_ok assoc comm ident) hitem zero hw hi hne hn (isAxis_lt hk) hlen (fun _ _ => trivial)
  exact ⟨r, reduceFn_many h0 hk h1, h3⟩

/-- C72 (partial): a tuple that names every axis reduces the whole array; the value is right although the shape is `(1,)`. -/
theorem C72_all_axes_partial {α : Type} (op : α → α → α) (e : α) (assoc : ∀ a b c, op (op a b) c = op a (op b c)) (comm : ∀ a b, op a b = op b a)
    (ident : ∀ a, op e a = a) (full : Held α → α) (item : Nat) (hitem : 0 < item) (zero : α) (h : Held α) (hw : h.view.WF) (hi : 0 < h.view.item)
    (l : List Int) (ks : List Nat) (h0 : l ≠ []) (hk : List.Forall₂ (IsAxis h.view.shape.length) l ks) (hn : ks.Nodup)
    (hlen : ks.length = h.view.shape.length) :
    ∃ r, reduceFn full (reduceStep op e) item zero h (.many l) = .ok (.array r) ∧ r.nd.Same ⟨[1], fun _ => h.nd.toList.foldl op e⟩ := by
  have hne : ks ≠ [] := by rintro rfl; cases hk; exact h0 rfl
  obtain ⟨r, h1, -, h3⟩ := reduceAxes_all (reduceStep_ok assoc comm ident) hitem zero hw hi hne hn (isAxis_lt hk) hlen (fun _ _ => trivial)
  exact ⟨r, reduceFn_many h0 hk h1, h3⟩

/-- C72 (partial): the mean over a tuple of distinct axes is the mean of all the elements along them, when no axis
is empty. Missing as for sums; empty axes give NaN, which a field does not have. -/
theorem C72_mean_axes_partial {K : Type} [Field K] (typed : Bool) (full : Held K → K) (item : Nat) (hitem : 0 < item) (zero : K) (h : Held K)
    (hw : h.view.WF) (hi : 0 < h.view.item) (hpos : ∀ n ∈ h.view.shape, n ≠ 0)
    (l : List Int) (ks : List Nat) (h0 : l ≠ []) (hk : List.Forall₂ (IsAxis h.view.shape.length) l ks) (hn : ks.Nodup) :
    (ks.length < h.view.shape.length →
      ∃ r, reduceFn full (meanStep typed) item zero h (.many l) = .ok (.array r) ∧ r.nd.Same (h.nd.collapse meanOf ks)) ∧
    (ks.length = h.view.shape.length →
      ∃ r, reduceFn full (meanStep typed) item zero h (.many l) = .ok (.array r) ∧ r.nd.Same ⟨[1], fun _ => meanOf h.nd.toList⟩) := by
  constructor
  · intro hlen
    have hne : ks ≠ [] := by rintro rfl; cases hk; exact h0 rfl
    obtain ⟨r, h1, -, h3⟩ := reduceAxes_ok (meanStep_ok typed) hitem zero hw hi hne hn (isAxis_lt hk) hlen hpos
    exact ⟨r, reduceFn_many h0 hk h1, h3⟩
  · intro hlen
    have hne : ks ≠ [] := by rintro rfl; cases hk; exact h0 rfl
    obtain ⟨r, h1, -, h3⟩ := reduceAxes_all (meanStep_ok typed) hitem zero hw hi hne hn (isAxis_lt hk) hlen hpos
    exact ⟨r, reduceFn_many h0 hk h1, h3⟩

/-- An array over ℚ in fresh memory, for the examples. -/
def ratHeld (shape : List Nat) (data : List ℚ) : Held ℚ := Held.of ⟨shape, data⟩ 8 0

/-- The shape and elements of a result. -/
def shown (r : Outcome (Reduced α)) : Option (List Nat × List α) :=
  match r with
  | .ok (.array h) => some (h.view.shape, h.nd.toList)
  | .ok (.scalar x) => some ([], [x])
  | _ => none

example : shown (reduceFn (fun _ => 0) (reduceStep (· + ·) 0) 8 0 (ratHeld [2, 2, 2] [1, 2, 3, 4, 5, 6, 7, 8]) (.many [0, -1])) =
    some ([2], [14, 22]) := by decide +kernel
example : List.Forall₂ (IsAxis 3) [0, -1] [0, 2] :=
  .cons ⟨by omega, .inl rfl⟩ (.cons ⟨by omega, .inr rfl⟩ .nil)
example : (⟨[2, 2, 2], fun i => ((rank [2, 2, 2] i + 1 : Nat) : ℚ)⟩ : Nd ℚ).over [0, 2] [1] = [3, 4, 7, 8] := by decide +kernel
example : shown (reduceFn (fun _ => 0) (meanStep false) 8 0 (ratHeld [2, 2, 2] [1, 2, 3, 4, 5, 6, 7, 8]) (.many [2, 0])) =
    some ([2], [7 / 2, 11 / 2]) := by decide +kernel

/-- C72: naming every axis leaves an array of shape `(1,)`. -/
theorem C72_all_axes_counterexample :
    shown (reduceFn (fun _ => 0) (reduceStep (· + ·) 0) 8 0 (ratHeld [2, 2] [1, 2, 3, 4]) (.many [0, 1])) = some ([1], [10]) ∧
    ((ratHeld [2, 2] [1, 2, 3, 4]).nd.collapse (fun l => l.foldl (· + ·) 0) [0, 1]).shape = [] := by decide +kernel

/-- C72: a repeated axis is not refused: it reduces a second axis instead, or panics. -/
theorem C72_repeated_counterexample :
    shown (reduceFn (fun _ => 0) (reduceStep (· + ·) 0) 8 0 (ratHeld [2, 2] [1, 2, 3, 4]) (.many [0, 0])) = some ([1], [10]) ∧
    (match reduceFn (fun _ => 0) (reduceStep (· + ·) 0) 8 0 (ratHeld [2, 2] [1, 2, 3, 4]) (.many [1, -1]) with
      | .panic => true | _ => false) = true := by decide +kernel

/-! ### Means and moments of whole arrays -/

theorem nd_length {h : Held K} : h.nd.toList.length = Rumpy.sizeOf h.view.shape := by
  unfold Nd.toList
  rw [List.length_map, length_indices, sizeOf_eq]
  rfl

/-- C72: the mean of a nonempty array, in any layout, is the sum of its elements over their number. -/
theorem C72_mean {K : Type} [Field K] (h : Held K) (hw : h.view.WF) :
    meanAll h = if h.nd.toList = [] then none else some (meanOf h.nd.toList) := by
  unfold meanAll
  by_cases hs : Rumpy.sizeOf h.view.shape = 0
  · rw [if_pos hs, if_pos (List.length_eq_zero_iff.1 (by rw [nd_length, hs]))]
  · rw [if_neg hs, if_neg (by intro he; apply hs; rw [← nd_length (h := h), he]; rfl)]
    unfold meanOf
    rw [nd_length, C16_reduce_all (fun a b : K => a + b) 0 add_assoc add_comm zero_add h.mem h.view hw, foldl_add_eq_sum]
    rfl

/-- C72: the moment of order `k` of a nonempty array, in any layout. -/
theorem C72_moment {K : Type} [Field K] (k : Nat) (h : Held K) (hw : h.view.WF) :
    momentAll k h = if h.nd.toList = [] then none else some (momentOf k h.nd.toList) := by
  unfold momentAll
  dsimp only
  rw [C72_mean h hw]
  by_cases hs : Rumpy.sizeOf h.view.shape = 0
  · rw [if_pos hs, if_pos (List.length_eq_zero_iff.1 (by rw [nd_length, hs]))]
  · have he : h.nd.toList ≠ [] := by intro he; apply hs; rw [← nd_length (h := h), he]; rfl
    rw [if_neg hs, if_neg he, if_neg he, Option.map_some]
    congr 1
    unfold momentOf
    have e : h.view.addrs.foldl (fun s p => s + (h.mem p - meanOf h.nd.toList) ^ k) 0 =
        (h.nd.toList.map fun x => (x - meanOf h.nd.toList) ^ k).sum := by
      rw [foldl_add_map]
      rw [show h.nd.toList.map (fun x => (x - meanOf h.nd.toList) ^ k) = h.view.addrs.map fun p => (h.mem p - meanOf h.nd.toList) ^ k from ?_]
      have h1 : h.nd.toList = h.view.addrs.map h.mem := (addrs_map hw h.mem).symm
      conv_lhs => rw [h1, List.map_map]
      rw [h1]; rfl
    rw [e]
    show _ = List.sum _ / _
    rw [List.length_map, nd_length]

/-- A contiguous view read one element after another. -/
theorem contiguous_list (h : Held K) (hw : h.view.WF) (hc : h.view.cFlag = true) :
    (List.range (Rumpy.sizeOf h.view.shape)).map (fun (i : Nat) => h.mem (h.view.offset + (i : Int) * (h.view.item : Int))) = h.nd.toList := by
  rw [sizeOf_eq, ← map_rank_indices, List.map_map]
  unfold Nd.toList
  apply List.map_congr_left
  intro i hi
  rw [mem_indices] at hi
  show _ = h.mem (h.view.addr i)
  rw [cFlag_addr hw hc hi]
  rfl

/-- C72: the variance, on the fast path for contiguous float64 and on the general one, is the second moment. -/
theorem C72_var {K : Type} [Field K] (f64 : Bool) (h : Held K) (hw : h.view.WF) :
    varAll f64 h = if h.nd.toList = [] then none else some (momentOf 2 h.nd.toList) := by
  rw [← C72_moment 2 h hw]
  unfold varAll momentAll
  dsimp only
  by_cases hs : Rumpy.sizeOf h.view.shape = 0
  · rw [if_pos hs, if_pos hs]
  · rw [if_neg hs, if_neg hs]
    split
    · next hc =>
      rw [Bool.and_eq_true] at hc
      have hl := contiguous_list h hw hc.1
      have hm : meanAll h = some (h.nd.toList.sum / (Rumpy.sizeOf h.view.shape : K)) := by
        rw [C72_mean h hw, if_neg (by intro he; apply hs; rw [← nd_length (h := h), he]; rfl)]
        unfold meanOf
        rw [nd_length]
      rw [hm, Option.map_some]
      congr 1
      unfold varContiguous
      dsimp only
      have h1 : ∀ g : K → K, (List.range (Rumpy.sizeOf h.view.shape)).foldl
          (fun s (i : Nat) => s + g (h.mem (h.view.offset + (i : Int) * (h.view.item : Int)))) 0 = (h.nd.toList.map g).sum := by
        intro g
        rw [foldl_add_map, ← hl, List.map_map]
        rfl
      have h2 : ∀ g : K → K, h.view.addrs.foldl (fun s p => s + g (h.mem p)) 0 = (h.nd.toList.map g).sum := by
        intro g
        rw [foldl_add_map, show h.nd.toList = h.view.addrs.map h.mem from (addrs_map hw h.mem).symm, List.map_map]
        rfl
      have h3 := h1 id
      rw [List.map_id] at h3
      have h3' : (List.range (Rumpy.sizeOf h.view.shape)).foldl
          (fun s (i : Nat) => s + h.mem (h.view.offset + (i : Int) * (h.view.item : Int))) 0 = h.nd.toList.sum := h3
      rw [h3']
      rw [h1 fun x => (x - h.nd.toList.sum / (Rumpy.sizeOf h.view.shape : K)) * (x - h.nd.toList.sum / (Rumpy.sizeOf h.view.shape : K)),
        h2 fun x => (x - h.nd.toList.sum / (Rumpy.sizeOf h.view.shape : K)) ^ 2]
      simp only [pow_two]
    · simp only [pow_two]

example : varAll true (ratHeld [2, 2] [1, 2, 3, 4]) = some (5 / 4) ∧ momentAll 3 (ratHeld [3] [0, 0, 3]) = some 2 ∧
    meanAll (ratHeld [0] []) = none := by decide +kernel

/-! ### Moments along an axis -/

theorem lanes_same {F : List α → β} (perm : ∀ {l m : List α}, l.Perm m → F l = F m) (a : Nd α) {ax : Nat} (hax : ax < a.shape.length) :
    (lanes F a ax).Same (a.collapse F [ax]) := by
  refine ⟨(dropAt_one hax).symm, ?_⟩
  intro idx hi
  exact (perm (over_one_perm a hax hi)).symm

/-- C72 (partial): along one nonempty axis of an array with at least two axes, each remaining index holds the
central moment of its lane; order two is the variance. Missing: arrays with one axis, which are not reduced. -/
theorem C72_moment_axis_partial {K : Type} [Field K] (typed : Bool) (k : Nat) (h : Held K) (ax : Nat) (hw : h.view.WF) (hi : 0 < h.view.item)
    (hax : ax < h.view.shape.length) (h2 : 2 ≤ h.view.shape.length) (hn : h.view.shape.getD ax 0 ≠ 0) :
    ∃ r, momentAxis typed k h ax = some r ∧ r.Is (h.nd.collapse (momentOf k) [ax]) := by
  obtain ⟨r, h1, h3⟩ := momentAxis_is typed k h ax hw hi hax h2 hn
  exact ⟨r, h1, h3.congr (lanes_same (momentOf_perm k) h.nd hax)⟩

example : momentAxis false 2 (ratHeld [2, 2] [1, 2, 3, 6]) 0 = some ⟨[2], [1, 4]⟩ ∧
    momentAxis true 3 (ratHeld [2, 3] [0, 0, 3, 1, 1, 1]) 1 = some ⟨[2], [2, 0]⟩ := by decide +kernel

/-- C72: the variance of a vector along its only axis returns the squared deviations over `n`, not their sum. -/
theorem C72_var_vector_counterexample :
    momentAxis false 2 (ratHeld [2] [1, 3]) 0 = some ⟨[2], [1 / 2, 1 / 2]⟩ ∧ varAll true (ratHeld [2] [1, 3]) = some 1 ∧
    momentAxis false 2 (ratHeld [4] [0, 0, 0, 4]) 0 = some ⟨[4], [1 / 4, 1 / 4, 1 / 4, 9 / 4]⟩ ∧ varAll true (ratHeld [4] [0, 0, 0, 4]) = some 3 := by
  decide +kernel

/-- C72: the variance over two axes is the variance of variances. -/
theorem C72_var_axes_counterexample :
    shown (reduceFn (fun _ => 0) (momentAxis false 2) 8 0 (ratHeld [1, 2, 2] [0, 0, 0, 4]) (.many [1, 2])) = some ([1], [4]) ∧
    momentOf 2 ([0, 0, 0, 4] : List ℚ) = 3 := by decide +kernel

/-- C72: the mean of an int8 array along an axis wraps: the sum is kept in int8. -/
theorem C72_mean_int_counterexample :
    (meanAxis false (fun a b : BitVec 8 => a + b) 0 (fun n => BitVec.ofNat 8 n) (fun a b => (a.toInt : ℚ) / (b.toInt : ℚ)) 0
      (Held.of ⟨[1, 2], [100#8, 100#8]⟩ 1 0) 1) = some ⟨[1], [-28]⟩ := by decide +kernel

/-! ### keepdims -/

/-- C72 (partial): with `keepdims` the result of an axis reduction has the same number of axes, length one along the
reduced axis, and the same elements. Missing: arrays with one axis, whose result gets two axes. -/
theorem C72_keepdims_partial {α : Type} (full : Held α → α) (step : Held α → Nat → Option (Arr α)) (conv : α → α) (item : Nat) (hitem : 0 < item)
    (zero : α) (h : Held α) (a : Int) (ax : Nat) (hax : IsAxis h.view.shape.length a ax) (f : List α → α) (r : Arr α) (hr : step h ax = some r)
    (his : r.Is (h.nd.collapse f [ax])) :
    ∃ q, reduceMethod full step conv item zero h (some a) true = .ok (.array q) ∧
      q.nd.Same ⟨h.view.shape.set ax 1, fun idx => f (h.nd.over [ax] (idx.eraseIdx ax))⟩ := by
  have hsh : (Held.of r item zero).view.shape = h.view.shape.eraseIdx ax := by
    rw [← dropAt_one hax.1]; exact his.1
  have hel : (h.view.shape.eraseIdx ax).length = h.view.shape.length - 1 := by rw [List.length_eraseIdx, if_pos hax.1]
  have hlt := hax.1
  obtain ⟨v, h1, h2, h3⟩ := C10_expand_dims (Held.of r item zero).mem (Held.of r item zero).view (held_of_wf r item zero) ax (by rw [hsh, hel]; omega)
  refine ⟨⟨(Held.of r item zero).mem, v⟩, ?_, ?_, ?_⟩
  · unfold reduceMethod
    dsimp only
    rw [checkedAxis_iff.2 hax]
    dsimp only
    rw [hr]
    dsimp only
    rw [if_pos rfl]
    unfold applyKeepdims
    rw [h1]
  · have h4 : v.shape = (Held.of r item zero).view.shape.insertIdx ax 1 := h3.1
    show v.shape = _
    rw [h4, hsh, insertIdx_eraseIdx_set _ hax.1]
  · intro idx hidx
    rw [show (Held.mk (Held.of r item zero).mem v).nd.get idx = _ from h3.2 idx hidx]
    have hidx : InShape v.shape idx := hidx
    have h4 : v.shape = (Held.of r item zero).view.shape.insertIdx ax 1 := h3.1
    rw [h4] at hidx
    have h5 := inShape_eraseIdx ax hidx
    rw [eraseIdx_insertIdx_self _ _ _ (by rw [hsh, hel]; omega)] at h5
    exact (held_of_is his hitem zero).2 (idx.eraseIdx ax) h5

/-- C72: without an axis, `keepdims` gives one element under as many axes of length one as the array has. -/
theorem C72_keepdims_whole {α : Type} (full : Held α → α) (step : Held α → Nat → Option (Arr α)) (conv : α → α) (item : Nat) (hitem : 0 < item)
    (zero : α) (h : Held α) :
    ∃ q, reduceMethod full step conv item zero h none true = .ok (.array q) ∧
      q.nd.Same ⟨List.replicate h.view.shape.length 1, fun _ => conv (full h)⟩ := by
  refine ⟨_, rfl, ?_⟩
  refine held_of_is (nd := ⟨List.replicate h.view.shape.length 1, fun _ => conv (full h)⟩) ⟨rfl, ?_⟩ hitem zero
  show _ = Nd.toList _
  rw [Nd.toList, List.map_const', length_indices]
  dsimp only
  have : size (List.replicate h.view.shape.length 1) = 1 := by
    generalize h.view.shape.length = n
    induction n with
    | zero => rfl
    | succ n ih => rw [List.replicate_succ]; show 1 * size _ = 1; rw [ih]
  rw [this]; rfl

example : shown (reduceMethod (fun _ => 0) (reduceStep (· + ·) 0) id 8 0 (ratHeld [2, 3] [1, 2, 3, 4, 5, 6]) (some (-1)) true) =
    some ([2, 1], [6, 15]) := by decide +kernel

/-- C72: with `keepdims` a reduced vector has two axes. -/
theorem C72_keepdims_vector_counterexample :
    shown (reduceMethod (fun _ => 0) (reduceStep (· + ·) 0) id 8 0 (ratHeld [3] [1, 2, 3]) (some 0) true) = some ([1, 1], [6]) := by
  decide +kernel

/-- C72: with `keepdims` and no axis the mean of an integer array is truncated, because it is stored back as an integer. -/
theorem C72_keepdims_mean_counterexample :
    shown (reduceMethod (fun _ => (3 : ℚ) / 2) (meanStep false) (fun x => (x.floor : ℚ)) 8 0 (ratHeld [2] [1, 2]) none true) = some ([1], [1]) ∧
    meanOf ([1, 2] : List ℚ) = 3 / 2 := by decide +kernel

end Props
