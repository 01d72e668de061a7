import Verif.Lemmas.Functional
import Verif.Props.Gufunc
import Verif.Props.Kron
import Verif.Props.Broadcast
/-!
# C66: Python functions applied along axes, over axes and element by element

`rd`/`wr` are the conversions between the dtype of the array and `f64`; where a theorem asks for
`wr (rd x) = x` it asks that the elements survive the trip (float64, or integers below 2^53).
-/

namespace Props
open Spec Rumpy

/-! ### apply_along_axis -/

/-- The axis an axis argument names. -/
def normAxis (ndim : Nat) (axis : Int) : Nat := (if axis < 0 then (ndim : Int) + axis else axis).toNat

theorem normAxis_lt {ndim : Nat} {axis : Int} (h : -(ndim : Int) ≤ axis ∧ axis < ndim) :
    ¬ ((if axis < 0 then (ndim : Int) + axis else axis) < 0 ∨ (ndim : Int) ≤ (if axis < 0 then (ndim : Int) + axis else axis)) ∧
      normAxis ndim axis < ndim := by
  unfold normAxis
  split <;> omega

theorem mapM_map_some {h : δ → β} {f : β → Option γ} {g : δ → γ} {l : List δ} (hf : ∀ x ∈ l, f (h x) = some (g x)) :
    (l.map h).mapM f = some (l.map g) := by
  rw [List.mapM_map]; exact mapM_of_some hf

/-- C66: an axis outside the array is an error. -/
theorem C66_along_axis_range (rd : α → K) (wr : K → α) (f : List α → Option (Ret K)) (mem : Int → α) (v : View) (axis : Int)
    (h : ¬ (-(v.shape.length : Int) ≤ axis ∧ axis < v.shape.length)) : applyAlongAxis rd wr f mem v axis = none := by
  unfold applyAlongAxis
  dsimp only
  rw [if_pos]
  split <;> omega

theorem alongAxis_run (rd : α → K) (wr : K → α) (hrw : ∀ x, wr (rd x) = x) (f : List α → Option (Ret K)) (mem : Int → α)
    {v : View} (hw : v.WF) {axis : Int} (hax : -(v.shape.length : Int) ≤ axis ∧ axis < v.shape.length)
    (h0 : size (v.shape.eraseIdx (normAxis v.shape.length axis)) ≠ 0) :
    applyAlongAxis rd wr f mem v axis = ((indices (v.shape.eraseIdx (normAxis v.shape.length axis))).mapM fun idx =>
      f ((v.denote mem).lane (normAxis v.shape.length axis) idx)).bind
        (assemble wr (v.shape.eraseIdx (normAxis v.shape.length axis))) := by
  obtain ⟨h1, h2⟩ := normAxis_lt hax
  unfold applyAlongAxis
  dsimp only
  rw [if_neg h1]
  change (if Rumpy.sizeOf (v.shape.eraseIdx (normAxis v.shape.length axis)) = 0 then _ else _) = _
  rw [if_neg (by rw [sizeOf_eq]; exact h0), odometerAll_eq]
  change Option.bind ((indices (v.shape.eraseIdx (normAxis v.shape.length axis))).mapM _) _ = _
  congr 1
  have : ∀ idx ∈ indices (v.shape.eraseIdx (normAxis v.shape.length axis)),
      f ((sliceAlongAxis rd mem v (normAxis v.shape.length axis) idx).map wr) =
        f ((v.denote mem).lane (normAxis v.shape.length axis) idx) := by
    intro idx hi
    rw [sliceAlongAxis_eq rd mem hw h2 (mem_indices.1 hi), List.map_map]
    congr 1
    conv_rhs => rw [← List.map_id ((v.denote mem).lane (normAxis v.shape.length axis) idx)]
    exact List.map_congr_left fun x _ => hrw x
  exact mapM_congr_left this

/-- C66: `apply_along_axis(f, axis, a)` for a function that gives numbers: the entry at each index is
the number for the lane through that index.  Numbers are stored in the dtype of the array. -/
theorem C66_along_axis_scalar (rd : α → K) (wr : K → α) (hrw : ∀ x, wr (rd x) = x) (g : List α → K) (mem : Int → α)
    (v : View) (hw : v.WF) (axis : Int) (hax : -(v.shape.length : Int) ≤ axis ∧ axis < v.shape.length) :
    ∃ A, applyAlongAxis rd wr (fun l => some (.num (g l))) mem v axis = some A ∧
      A.Is ((v.denote mem).reduceDrop (fun l => wr (g l)) (normAxis v.shape.length axis)) := by
  obtain ⟨h1, h2⟩ := normAxis_lt hax
  by_cases h0 : size (v.shape.eraseIdx (normAxis v.shape.length axis)) = 0
  · refine ⟨⟨v.shape.eraseIdx (normAxis v.shape.length axis), []⟩, ?_, rfl, ?_⟩
    · unfold applyAlongAxis
      dsimp only
      rw [if_neg h1]
      change (if Rumpy.sizeOf (v.shape.eraseIdx (normAxis v.shape.length axis)) = 0 then _ else _) = _
      rw [if_pos (by rw [sizeOf_eq]; exact h0)]; rfl
    · symm
      apply List.eq_nil_of_length_eq_zero
      rw [Nd.length_toList]; exact h0
  · rw [alongAxis_run rd wr hrw _ mem hw hax h0]
    generalize hs : v.shape.eraseIdx (normAxis v.shape.length axis) = s at h0 ⊢
    rw [mapM_of_some (g := fun idx => Ret.num (g ((v.denote mem).lane (normAxis v.shape.length axis) idx))) (fun _ _ => rfl)]
    refine ⟨⟨s, (indices s).map fun idx => wr (g ((v.denote mem).lane (normAxis v.shape.length axis) idx))⟩, ?_, hs.symm, ?_⟩
    · have key : ∀ l : List (List Nat), l ≠ [] → l.length = size s →
          assemble wr s (l.map fun idx => Ret.num (g ((v.denote mem).lane (normAxis v.shape.length axis) idx))) =
            some ⟨s, l.map fun idx => wr (g ((v.denote mem).lane (normAxis v.shape.length axis) idx))⟩ := by
        intro l hl hlen
        cases l with
        | nil => exact absurd rfl hl
        | cons i l =>
          rw [List.map_cons, assemble, ← List.map_cons (f := fun idx => Ret.num (g ((v.denote mem).lane (normAxis v.shape.length axis) idx))),
            mapM_map_some (f := Ret.num?) (h := fun idx => Ret.num (g ((v.denote mem).lane (normAxis v.shape.length axis) idx))) (g := fun idx => g ((v.denote mem).lane (normAxis v.shape.length axis) idx)) (fun _ _ => rfl)]
          change Arr.reshapeTo _ s = _
          rw [Arr.reshapeTo_eq _ (by simpa using hlen), List.map_map]; rfl
      refine key _ ?_ (length_indices s)
      intro h
      apply h0
      rw [← length_indices, h]; rfl
    · simp only [Nd.toList, Nd.reduceDrop]
      rw [show (v.denote mem).shape = v.shape from rfl, hs]

/-- C66: for a function that gives arrays of shape `inner`, the entry at `l ++ c` is the entry `c` of the
array for the lane through `l`. -/
theorem C66_along_axis_blocks (rd : α → K) (wr : K → α) (hrw : ∀ x, wr (rd x) = x) (F : List α → Arr K) (G : List α → Nd K)
    (inner : List Nat) (hF : ∀ l, (F l).Is (G l)) (hG : ∀ l, (G l).shape = inner) (mem : Int → α)
    (v : View) (hw : v.WF) (axis : Int) (hax : -(v.shape.length : Int) ≤ axis ∧ axis < v.shape.length)
    (h0 : size (v.shape.eraseIdx (normAxis v.shape.length axis)) ≠ 0) :
    ∃ A, applyAlongAxis rd wr (fun l => some (.arr (F l))) mem v axis = some A ∧
      A.Is ⟨v.shape.eraseIdx (normAxis v.shape.length axis) ++ inner, fun idx =>
        wr ((G ((v.denote mem).lane (normAxis v.shape.length axis) (idx.take (v.shape.length - 1)))).get
          (idx.drop (v.shape.length - 1)))⟩ := by
  obtain ⟨h1, h2⟩ := normAxis_lt hax
  rw [alongAxis_run rd wr hrw _ mem hw hax h0]
  have hsl : (v.shape.eraseIdx (normAxis v.shape.length axis)).length = v.shape.length - 1 :=
    List.length_eraseIdx_of_lt h2
  generalize v.shape.eraseIdx (normAxis v.shape.length axis) = s at h0 hsl ⊢
  generalize v.shape.length - 1 = d at hsl ⊢
  generalize hL : (v.denote mem).lane (normAxis v.shape.length axis) = L
  rw [mapM_of_some (g := fun idx => Ret.arr (F (L idx))) (fun _ _ => rfl)]
  have hdata : ∀ l, (F l).data = (indices inner).map (G l).get := by
    intro l
    rw [(hF l).2, Nd.toList, hG]
  have hall : ((indices s).flatMap fun idx => (F (L idx)).data).map wr =
      (indices (s ++ inner)).map fun idx => wr ((G (L (idx.take d))).get (idx.drop d)) := by
    rw [indices_append, List.map_flatMap, List.map_flatMap]
    refine List.flatMap_congr fun i hi => ?_
    have hil := (mem_indices.1 hi).length_eq
    rw [hdata, List.map_map, List.map_map]
    refine List.map_congr_left fun j _ => ?_
    simp only [Function.comp_apply]
    rw [List.take_left' (by omega), List.drop_left' (by omega)]
  refine ⟨⟨s ++ inner, ((indices s).flatMap fun idx => (F (L idx)).data).map wr⟩, ?_, rfl, ?_⟩
  · have key : ∀ l : List (List Nat), l ≠ [] → (l.flatMap fun idx => (F (L idx)).data).length = size (s ++ inner) →
        assemble wr s (l.map fun idx => Ret.arr (F (L idx))) =
          some ⟨s ++ inner, (l.flatMap fun idx => (F (L idx)).data).map wr⟩ := by
      intro l hl hlen
      cases l with
      | nil => exact absurd rfl hl
      | cons i l =>
        rw [List.map_cons, assemble, ← List.map_cons (f := fun idx => Ret.arr (F (L idx))), mapM_map_some (f := Ret.arr?) (h := fun idx => Ret.arr (F (L idx))) (g := fun idx => F (L idx)) (fun _ _ => rfl)]
        change Arr.reshapeTo _ (s ++ (F (L i)).shape) = _
        rw [(hF _).1, hG, List.flatMap_map, Arr.reshapeTo_eq _ (by rw [List.length_map]; exact hlen)]
    refine key _ ?_ ?_
    · intro h
      apply h0
      rw [← length_indices, h]; rfl
    · rw [← List.length_map (f := wr), hall, List.length_map, length_indices]
  · rw [hall]; rfl

/-- C66 (partial): for a function that gives arrays, applied along the *last* axis, the axes of its
results take the place of the axis.  Missing: the other axes, where the code puts the axes of the
results at the end (`C66_along_axis_blocks`, `C66_along_axis_first_axis_counterexample`), and arrays
without any lane (`C66_along_axis_empty_counterexample`). -/
theorem C66_along_axis_last_partial (rd : α → K) (wr : K → α) (hrw : ∀ x, wr (rd x) = x) (F : List α → Arr K) (G : List α → Nd K)
    (inner : List Nat) (hF : ∀ l, (F l).Is (G l)) (hG : ∀ l, (G l).shape = inner) (mem : Int → α)
    (v : View) (hw : v.WF) (hd : 0 < v.shape.length) (h0 : size v.shape.dropLast ≠ 0) :
    ∃ A, applyAlongAxis rd wr (fun l => some (.arr (F l))) mem v (-1) = some A ∧
      A.Is (((v.denote mem).alongAxis (fun l => ⟨(G l).shape, fun c => wr ((G l).get c)⟩) inner (v.shape.length - 1))) := by
  have hn : normAxis v.shape.length (-1) = v.shape.length - 1 := by
    unfold normAxis
    rw [if_pos (by omega)]; omega
  have he : v.shape.eraseIdx (v.shape.length - 1) = v.shape.dropLast := by
    rw [List.dropLast_eq_eraseIdx]; omega
  obtain ⟨A, hA, hI⟩ := C66_along_axis_blocks rd wr hrw F G inner hF hG mem v hw (-1) (by omega) (by rw [hn, he]; exact h0)
  refine ⟨A, hA, hI.congr ⟨?_, fun idx hi => ?_⟩⟩
  · simp only [Nd.alongAxis, View.denote]
    rw [hn, he, List.drop_of_length_le (by omega), List.append_nil, List.dropLast_eq_take]
  · have hl := hi.length_eq
    rw [hn, he, List.length_append, List.length_dropLast] at hl
    simp only [Nd.alongAxis]
    rw [hn, List.drop_of_length_le (i := v.shape.length - 1 + inner.length) (by omega), List.append_nil]
    congr 2
    rw [List.take_of_length_le]
    rw [List.length_drop]; omega

/-- `apply_along_axis` of the identity along axis 0 transposes the array. -/
theorem C66_along_axis_first_axis_counterexample :
    applyAlongAxis (id : Int → Int) id (fun l => some (.arr ⟨[l.length], l⟩)) (fun a => a) (View.fresh [2, 3] 1) 0 =
      some ⟨[3, 2], [0, 3, 1, 4, 2, 5]⟩ ∧
    ((View.fresh [2, 3] 1).denote fun a => a).toList = [0, 1, 2, 3, 4, 5] ∧
    (((View.fresh [2, 3] 1).denote fun a => a).alongAxis (fun l => ⟨[l.length], fun c => l.getD (c.headD 0) 0⟩) [2] 0).toList =
      [0, 1, 2, 3, 4, 5] := by decide

/-- The results are stored in the dtype of the array: the means of the rows of an integer matrix are
truncated. -/
theorem C66_along_axis_dtype_counterexample :
    applyAlongAxis (fun x : Int => (x : Rat)) (fun q : Rat => q.num.tdiv q.den)
      (fun l => some (.num ((l.sum : Rat) / l.length))) (fun a => a) (View.fresh [2, 2] 1) 1 = some ⟨[2], [0, 2]⟩ ∧
    ((0 + 1 : Rat) / 2 ≠ 0) := by decide +kernel

/-- Without any lane the function is not called, so the axes of its results are missing: NumPy refuses
the call. -/
theorem C66_along_axis_empty_counterexample :
    applyAlongAxis (id : Int → Int) id (fun l => some (.arr ⟨[l.length], l⟩)) (fun a => a) (View.fresh [0, 3] 1) 1 =
      some ⟨[0], []⟩ ∧
    (((View.fresh [0, 3] 1).denote fun a : Int => a).alongAxis (fun l => ⟨[l.length], fun c => l.getD (c.headD 0) 0⟩) [3] 1).shape =
      [0, 3] := by decide

-- the sums along axis 0 of a transposed matrix
example : applyAlongAxis (id : Int → Int) id (fun l => some (.num l.sum)) (fun a => a) (View.fresh [2, 3] 1).transpose 0 =
    some ⟨[2], [3, 12]⟩ := by decide

-- cumulative sums along the last axis
example : applyAlongAxis (id : Int → Int) id (fun l => some (.arr ⟨[2], [l.sum, l.length]⟩)) (fun a => a) (View.fresh [2, 3] 1) (-1) =
    some ⟨[2, 2], [3, 3, 12, 3]⟩ := by decide

/-! ### apply_over_axes -/

theorem restoreAxes_one (axis : Nat) {s : List Nat} (h : axis < s.length) :
    restoreAxes axis (s.length - (s.eraseIdx axis).length) (s.eraseIdx axis) = s.set axis 1 := by
  have hl := List.length_eraseIdx_of_lt h
  have e : s.length - (s.eraseIdx axis).length = 0 + 1 := by omega
  rw [e, restoreAxes, restoreAxes]
  have hset : (s.eraseIdx axis).insertIdx axis 1 = s.set axis 1 := List.insertIdx_eraseIdx_self (by omega) 1
  split
  · exact hset
  · rename_i hn
    have ha : axis = (s.eraseIdx axis).length := by omega
    rw [← hset]
    conv_rhs => rw [ha]
    rw [show s.eraseIdx (s.eraseIdx axis).length = s.eraseIdx axis by rw [← ha]]
    exact List.insertIdx_length_self.symm

theorem indices_erase_one : ∀ {s : List Nat} {axis : Nat}, axis < s.length →
    (indices (s.set axis 1)).map (·.eraseIdx axis) = indices (s.eraseIdx axis)
  | n :: s, 0, _ => by simp [indices, Function.comp_def]
  | n :: s, axis + 1, h => by
    simp only [List.set_cons_succ, indices, List.map_flatMap, List.map_map, List.eraseIdx_cons_succ]
    refine List.flatMap_congr fun i _ => ?_
    rw [← indices_erase_one (by simpa using h), List.map_map]
    rfl

theorem reduce_toList (g : List α → α) (a : Nd α) {k : Nat} (hk : k < a.shape.length) :
    (a.reduceDrop g k).toList = (a.reduceKeep g k).toList := by
  simp only [Nd.toList, Nd.reduceDrop, Nd.reduceKeep]
  rw [← indices_erase_one hk, List.map_map]; rfl

/-- C66: `apply_over_axes(f, a, axes)` for a function that reduces the axis it is given, and keeps it with
length 1 or drops it: the axes are reduced one after the other, and all of them stay with length 1. -/
theorem C66_over_axes (f : Arr α → Nat → Option (Arr α)) (g : List α → α) (ndim : Nat)
    (hf : ∀ cur a k, cur.Is a → a.shape.length = ndim → k < ndim →
      ∃ r, f cur k = some r ∧ (r.Is (a.reduceKeep g k) ∨ r.Is (a.reduceDrop g k))) :
    ∀ (axes : List Int) (cur : Arr α) (a : Nd α), cur.Is a → a.shape.length = ndim →
      (∀ ax ∈ axes, -(ndim : Int) ≤ ax ∧ ax < ndim) →
      ∃ r, applyOverAxes f ndim axes cur = some r ∧ r.Is (axes.foldl (fun a ax => a.reduceKeep g (normAxis ndim ax)) a)
  | [], cur, a, hc, _, _ => ⟨cur, rfl, hc⟩
  | ax :: axes, cur, a, hc, hn, hax => by
    obtain ⟨h1, h2⟩ := normAxis_lt (hax ax (by simp))
    obtain ⟨r, hr, hI⟩ := hf cur a _ hc hn h2
    have hnext : keepAxes ndim (normAxis ndim ax) r =
          some ⟨a.shape.set (normAxis ndim ax) 1, r.data⟩ ∧
        Arr.Is ⟨a.shape.set (normAxis ndim ax) 1, r.data⟩ (a.reduceKeep g (normAxis ndim ax)) := by
      unfold keepAxes
      rcases hI with hI | hI
      · have hs : r.shape = a.shape.set (normAxis ndim ax) 1 := hI.1
        refine ⟨?_, rfl, hI.2⟩
        rw [if_neg (by rw [hs, List.length_set]; simpa using hn), ← hs]
      · have hs : r.shape = a.shape.eraseIdx (normAxis ndim ax) := hI.1
        have hd : r.data = (a.reduceKeep g (normAxis ndim ax)).toList := hI.2.trans (reduce_toList g a (by omega))
        refine ⟨?_, rfl, hd⟩
        have hl := List.length_eraseIdx_of_lt (l := a.shape) (i := normAxis ndim ax) (by omega)
        rw [if_pos (by rw [hs, hl]; omega), hs]
        subst hn
        rw [restoreAxes_one _ h2]
        unfold Arr.reshapeTo
        rw [if_pos (by rw [sizeOf_eq, hd, Nd.length_toList]; rfl)]
    obtain ⟨r', hr', hI'⟩ := C66_over_axes f g ndim hf axes _ _ hnext.2
      (by simp only [Nd.reduceKeep, List.length_set]; exact hn) (fun x hx => hax x (by simp [hx]))
    refine ⟨r', ?_, hI'⟩
    rw [applyOverAxes]
    rw [if_neg h1]
    change (f cur (normAxis ndim ax)).bind _ = _
    rw [hr]
    change Option.bind (keepAxes ndim (normAxis ndim ax) r) _ = _
    rw [hnext.1]
    exact hr'

/-- C66: an axis outside the array is an error. -/
theorem C66_over_axes_range (f : Arr α → Nat → Option (Arr α)) (ndim : Nat) :
    ∀ (axes : List Int) (cur : Arr α), (∃ ax ∈ axes, ¬ (-(ndim : Int) ≤ ax ∧ ax < ndim)) → applyOverAxes f ndim axes cur = none
  | [], cur, h => by simp at h
  | ax :: axes, cur, h => by
    rw [applyOverAxes]
    by_cases hax : -(ndim : Int) ≤ ax ∧ ax < ndim
    · rw [if_neg (normAxis_lt hax).1]
      obtain ⟨x, hx, hn⟩ := h
      rcases List.mem_cons.1 hx with rfl | hx
      · exact absurd hax hn
      · cases hr : f cur (if ax < 0 then (ndim : Int) + ax else ax).toNat with
        | none => rfl
        | some r =>
          refine Option.bind_eq_none_iff.2 fun z _ => Option.bind_eq_none_iff.2 fun y _ => ?_
          exact C66_over_axes_range f ndim axes y ⟨x, hx, hn⟩
    · rw [if_pos]
      split <;> omega

-- sums over axis 0 and then over the last axis, by a function that drops the axis
def sumDrop (a : Arr Int) (k : Nat) : Option (Arr Int) :=
  some ⟨a.shape.eraseIdx k, (indices (a.shape.eraseIdx k)).map fun idx =>
    ((List.range (a.shape.getD k 0)).map fun j => (a.at? (idx.insertIdx k j)).getD 0).sum⟩

example : applyOverAxes sumDrop 3 [0, -1] ⟨[2, 2, 2], [1, 2, 3, 4, 5, 6, 7, 8]⟩ = some ⟨[1, 2, 1], [14, 22]⟩ := by decide

theorem sumDrop_spec (cur : Arr Int) (a : Nd Int) (k : Nat) (hc : cur.Is a) (hk : k < a.shape.length) :
    ∃ r, sumDrop cur k = some r ∧ (r.Is (a.reduceKeep List.sum k) ∨ r.Is (a.reduceDrop List.sum k)) := by
  refine ⟨_, rfl, Or.inr ⟨?_, ?_⟩⟩
  · simp only [Nd.reduceDrop]; rw [hc.1]
  · simp only [Nd.toList, Nd.reduceDrop]
    rw [hc.1]
    refine List.map_congr_left fun idx hi => ?_
    unfold Nd.lane
    congr 1
    refine List.map_congr_left fun j hj => ?_
    rw [hc.at? (inShape_insertIdx hk (mem_indices.1 hi) (List.mem_range.1 hj))]; rfl

-- the hypothesis of `C66_over_axes` holds of the sum
example (ndim : Nat) (axes : List Int) (cur : Arr Int) (a : Nd Int) (h : cur.Is a) (hn : a.shape.length = ndim)
    (hax : ∀ ax ∈ axes, -(ndim : Int) ≤ ax ∧ ax < ndim) :
    ∃ r, applyOverAxes sumDrop ndim axes cur = some r ∧
      r.Is (axes.foldl (fun a ax => a.reduceKeep List.sum (normAxis ndim ax)) a) :=
  C66_over_axes sumDrop List.sum ndim (fun cur a k hc hl hk => sumDrop_spec cur a k hc (by omega)) axes cur a h hn hax

/-! ### vectorize and frompyfunc -/

/-- An argument as a user sees it. -/
def seenArg : CallArg V → VArg V
  | .arr h => .arr h.nd
  | .obj x => .obj x

/-- The arrays among the arguments are well formed. -/
def ArgsWF (args : List (CallArg V)) : Prop := ∀ h, CallArg.arr h ∈ args → h.view.WF

theorem arrShapes_seen : ∀ args : List (CallArg V),
    arrShapes (args.map seenArg) = (args.filterMap CallArg.arr?).map fun h => h.view.shape
  | [] => rfl
  | .arr h :: args => by
    have := arrShapes_seen args
    unfold arrShapes at this ⊢
    simp only [List.map_cons, seenArg, List.filterMap_cons, CallArg.arr?, this]
    rfl
  | .obj x :: args => by
    have := arrShapes_seen args
    unfold arrShapes at this ⊢
    simp only [List.map_cons, seenArg, List.filterMap_cons, CallArg.arr?, this]

theorem objsFrom_ge : ∀ {args : List (CallArg V)} {pos : Nat} {p : Nat × V}, p ∈ objsFrom pos args → pos ≤ p.1
  | .arr _ :: args, pos, p, h => by
    rw [objsFrom] at h
    have := objsFrom_ge h; omega
  | .obj x :: args, pos, p, h => by
    rw [objsFrom] at h
    rcases List.mem_cons.1 h with rfl | h
    · exact Nat.le_refl _
    · have := objsFrom_ge h; omega

/-- The arguments of a call are put together in their order. -/
theorem mergeArgs_eq (g : Held V → V) : ∀ (args : List (CallArg V)) (pos : Nat),
    mergeArgs pos args.length (objsFrom pos args) ((args.filterMap CallArg.arr?).map g) =
      args.map fun | .arr h => g h | .obj x => x
  | [], pos => by simp [mergeArgs]
  | .arr h :: args, pos => by
    have ih := mergeArgs_eq g args (pos + 1)
    simp only [List.length_cons, objsFrom, List.filterMap_cons, CallArg.arr?, List.map_cons]
    cases ho : objsFrom (pos + 1) args with
    | nil =>
      change g h :: mergeArgs (pos + 1) args.length [] _ = _
      rw [← ho, ih]
    | cons p O =>
      have : pos + 1 ≤ p.1 := objsFrom_ge (args := args) (by rw [ho]; simp)
      obtain ⟨p, x⟩ := p
      have hp : p ≠ pos := by
        have : pos + 1 ≤ p := this
        omega
      rw [mergeArgs.eq_def]
      dsimp only
      rw [if_neg hp]
      rw [← ho, ih]
  | .obj x :: args, pos => by
    have ih := mergeArgs_eq g args (pos + 1)
    simp only [List.length_cons, objsFrom, List.filterMap_cons, CallArg.arr?, List.map_cons]
    rw [mergeArgs.eq_def]
    dsimp only
    rw [if_pos rfl, ih]

/-- The broadcast view of an argument. -/
def bview (shape : List Nat) (h : Held V) : Held V := ⟨h.mem, (h.view.broadcastTo shape).getD h.view⟩

theorem bview_spec {shape : List Nat} {h : Held V} (hw : h.view.WF) (hb : BroadcastsTo h.view.shape shape) :
    h.view.broadcastTo shape = some (bview shape h).view ∧
      ∀ idx, InShape shape idx → h.mem ((bview shape h).view.addr idx) = (h.nd.broadcast shape).get idx := by
  have hs := (C09_broadcast_to_succeeds_iff h.view hw shape).2 hb
  obtain ⟨w, hw'⟩ := Option.isSome_iff_exists.1 hs
  obtain ⟨h1, h2⟩ := C09_broadcast_to h.mem h.view w hw shape hw'
  unfold bview
  rw [hw']
  refine ⟨rfl, fun idx hi => h2.2 idx ?_⟩
  rw [h2.1]; exact hi

theorem mem_filterMap_arr {args : List (CallArg V)} {h : Held V} : h ∈ args.filterMap CallArg.arr? ↔ CallArg.arr h ∈ args := by
  rw [List.mem_filterMap]
  constructor
  · rintro ⟨x, hx, e⟩
    cases x with
    | arr k => simp only [CallArg.arr?, Option.some.injEq] at e; rwa [← e]
    | obj x => simp [CallArg.arr?] at e
  · intro hx; exact ⟨_, hx, rfl⟩

theorem arg_value {args : List (CallArg V)} (hw : ArgsWF args) {shape : List Nat}
    (hb : IsBroadcastAll (arrShapes (args.map seenArg)) shape) {idx : List Nat} (hi : InShape shape idx) :
    (args.map fun | .arr h => h.mem ((bview shape h).view.addr idx) | .obj x => x) =
      (args.map seenArg).map (VArg.at shape idx) := by
  rw [List.map_map]
  refine List.map_congr_left fun x hx => ?_
  cases x with
  | obj x => rfl
  | arr h =>
    refine (bview_spec (hw h hx) (isBroadcastAll_to hb ?_)).2 idx hi
    rw [arrShapes_seen]
    exact List.mem_map.2 ⟨h, mem_filterMap_arr.2 hx, rfl⟩

theorem vectorize_run (wr : K → α) (f : List V → Option K) (args : List (CallArg V)) (hw : ArgsWF args)
    (hne : arrShapes (args.map seenArg) ≠ []) {shape : List Nat} (hb : IsBroadcastAll (arrShapes (args.map seenArg)) shape) :
    vectorizeCall wr f args =
      ((indices shape).mapM fun idx => f ((args.map seenArg).map (VArg.at shape idx))).bind fun results =>
        (Arr.reshapeTo ⟨[results.length], results.map wr⟩ shape).map .arrays := by
  unfold vectorizeCall
  dsimp only
  rw [arrShapes_seen] at hne
  have hne' : ¬ ((args.filterMap CallArg.arr?).isEmpty = true) := by
    intro h; apply hne; rw [List.isEmpty_iff.1 h]; rfl
  rw [if_neg hne', ← arrShapes_seen, bcastShapes_iff.2 hb]
  change Option.bind ((args.filterMap CallArg.arr?).mapM _) _ = _
  rw [mapM_of_some (g := bview shape)]
  · change Option.bind ((List.range (Rumpy.sizeOf shape)).mapM _) _ = _
    rw [mapM_flat shape fun idx => f (mergeArgs 0 args.length (objsFrom 0 args)
      (((args.filterMap CallArg.arr?).map (bview shape)).map fun h => h.mem (h.view.addr idx)))]
    have : ∀ idx ∈ indices shape, f (mergeArgs 0 args.length (objsFrom 0 args)
      (((args.filterMap CallArg.arr?).map (bview shape)).map fun h => h.mem (h.view.addr idx))) =
        f ((args.map seenArg).map (VArg.at shape idx)) := by
      intro idx hi
      rw [List.map_map, mergeArgs_eq, ← arg_value hw hb (mem_indices.1 hi)]
      rfl
    rw [mapM_congr_left this]
    congr 1
    funext r
    cases Arr.reshapeTo ⟨[r.length], r.map wr⟩ shape <;> rfl
  · intro h hh
    rw [(bview_spec (hw h (mem_filterMap_arr.1 hh)) (isBroadcastAll_to hb (by
      rw [arrShapes_seen]; exact List.mem_map.2 ⟨h, hh, rfl⟩))).1]
    rfl

/-- C66: a vectorized function of arrays and other objects gives, at every index of the common shape, the
function of the elements at that index, in the order of the arguments. -/
theorem C66_vectorize (wr : K → α) (f : List V → K) (args : List (CallArg V)) (hw : ArgsWF args)
    (hne : arrShapes (args.map seenArg) ≠ []) (shape : List Nat) (hb : IsBroadcastAll (arrShapes (args.map seenArg)) shape) :
    ∃ A, vectorizeCall wr (fun xs => some (f xs)) args = some (.arrays A) ∧
      A.Is (vectorized (fun xs => wr (f xs)) (args.map seenArg) shape) := by
  rw [vectorize_run wr _ args hw hne hb,
    mapM_of_some (g := fun idx => f ((args.map seenArg).map (VArg.at shape idx))) (fun _ _ => rfl)]
  refine ⟨⟨shape, ((indices shape).map fun idx => f ((args.map seenArg).map (VArg.at shape idx))).map wr⟩, ?_, rfl, ?_⟩
  · change Option.map _ (Arr.reshapeTo _ shape) = _
    rw [Arr.reshapeTo_eq _ (by rw [List.length_map, List.length_map, length_indices])]; rfl
  · rw [List.map_map]; rfl

/-- C66: an exception raised for the elements at some index is raised by the call. -/
theorem C66_vectorize_raises (wr : K → α) (f : List V → Option K) (args : List (CallArg V)) (hw : ArgsWF args)
    (hne : arrShapes (args.map seenArg) ≠ []) (shape : List Nat) (hb : IsBroadcastAll (arrShapes (args.map seenArg)) shape)
    (idx : List Nat) (hi : InShape shape idx) (hf : f ((args.map seenArg).map (VArg.at shape idx)) = none) :
    vectorizeCall wr f args = none := by
  rw [vectorize_run wr f args hw hne hb]
  cases hm : (indices shape).mapM fun idx => f ((args.map seenArg).map (VArg.at shape idx)) with
  | none => rfl
  | some r =>
    have := (mapM_isSome_iff.1 (by rw [hm]; rfl)) idx (mem_indices.2 hi)
    rw [hf] at this; simp at this

/-- C66: shapes that do not broadcast are an error. -/
theorem C66_vectorize_mismatch (wr : K → α) (f : List V → Option K) (args : List (CallArg V))
    (hne : arrShapes (args.map seenArg) ≠ []) (hb : ¬ ∃ shape, IsBroadcastAll (arrShapes (args.map seenArg)) shape) :
    vectorizeCall wr f args = none := by
  have : bcastShapes (arrShapes (args.map seenArg)) = none := by
    cases h : bcastShapes (arrShapes (args.map seenArg)) with
    | none => rfl
    | some r => exact absurd ⟨r, bcastShapes_iff.1 h⟩ hb
  unfold vectorizeCall
  dsimp only
  rw [arrShapes_seen] at hne this
  have hne' : ¬ ((args.filterMap CallArg.arr?).isEmpty = true) := by
    intro h; apply hne; rw [List.isEmpty_iff.1 h]; rfl
  rw [if_neg hne', this]; rfl

/-- C66: without arrays the function is called once, with the arguments. -/
theorem C66_vectorize_objects (wr : K → α) (f : List V → Option K) (xs : List V) :
    vectorizeCall wr f (xs.map .obj) = (f xs).map .value := by
  unfold vectorizeCall
  dsimp only
  have h1 : (xs.map CallArg.obj).filterMap CallArg.arr? = [] := by
    induction xs with
    | nil => rfl
    | cons x xs ih => simp [CallArg.arr?]
  have h2 : ∀ pos, (objsFrom pos (xs.map CallArg.obj)).map Prod.snd = xs := by
    induction xs with
    | nil => intro pos; rfl
    | cons x xs ih => intro pos; simp only [List.map_cons, objsFrom]; rw [ih (by simp [CallArg.arr?])]
  rw [h1, if_pos (by rfl), h2]

-- f(x, 10, y) = x + 10 * y of a column and a row
example : vectorizeCall (id : Int → Int) (fun | [x, k, y] => some (x + k * y) | _ => none)
    [.arr ⟨fun a => a, View.fresh [2, 1] 1⟩, .obj 10, .arr ⟨fun a => a + 1, View.fresh [3] 1⟩] =
      some (.arrays ⟨[2, 3], [10, 20, 30, 11, 21, 31]⟩) := by decide +kernel

/-- C66 (partial): `frompyfunc(f, nin, nout)` of arguments with a common shape of one or more axes gives
`nout` arrays of that shape, holding the results of the function of the elements.  Missing: the common
shape `()` (`C66_frompyfunc_zero_dim_counterexample`). -/
theorem C66_frompyfunc_partial (nout : Nat) (f : List V → List R) (hf : ∀ xs, (f xs).length = nout) (r0 : R)
    (args : List (CallArg V)) (hw : ArgsWF args) (hne : arrShapes (args.map seenArg) ≠ []) (shape : List Nat)
    (hb : IsBroadcastAll (arrShapes (args.map seenArg)) shape) (hs : shape ≠ []) :
    ∃ outs, frompyfuncCall args.length nout (fun xs => some (f xs)) args = some (.arrays outs) ∧ outs.length = nout ∧
      ∀ k < nout, ∃ A, outs[k]? = some A ∧ A.Is (vectorized (fun xs => (f xs).getD k r0) (args.map seenArg) shape) := by
  let D : Nat → List R := fun k => (indices shape).map fun idx => (f ((args.map seenArg).map (VArg.at shape idx))).getD k r0
  refine ⟨(List.range nout).map fun k => ⟨shape, D k⟩, ?_, by simp, fun k hk => ⟨⟨shape, D k⟩, ?_, rfl, rfl⟩⟩
  · unfold frompyfuncCall
    rw [if_neg (by simp)]
    dsimp only
    have hne2 := hne
    rw [arrShapes_seen] at hne2
    have hne' : ¬ ((args.filterMap CallArg.arr?).isEmpty = true) := by
      intro h; apply hne2; rw [List.isEmpty_iff.1 h]; rfl
    rw [if_neg hne', ← arrShapes_seen, bcastShapes_iff.2 hb]
    change Option.bind (args.mapM (CallArg.spread shape)) _ = _
    rw [mapM_of_some (g := fun | .arr h => .arr (bview shape h) | .obj x => .obj x)]
    · change Option.bind ((List.range (Rumpy.sizeOf shape)).mapM _) _ = _
      rw [mapM_of_some (g := fun i => f ((args.map seenArg).map (VArg.at shape (flatToIndices i shape))))]
      · change Option.bind ((List.range nout).mapM _) _ = _
        have hm : (List.range (Rumpy.sizeOf shape)).map (fun i => f ((args.map seenArg).map (VArg.at shape (flatToIndices i shape)))) =
            (indices shape).map fun idx => f ((args.map seenArg).map (VArg.at shape idx)) := by
          rw [← map_flatToIndices, List.map_map]; rfl
        rw [hm]
        rw [mapM_of_some (g := fun k => ⟨shape, D k⟩)]
        · rfl
        · intro k hk
          have hdat : ((indices shape).map fun idx => f ((args.map seenArg).map (VArg.at shape idx))).filterMap (·[k]?) = D k := by
            rw [List.filterMap_map]
            have : ∀ l : List (List Nat), l.filterMap ((fun x : List R => x[k]?) ∘ fun idx => f ((args.map seenArg).map (VArg.at shape idx))) =
                l.map fun idx => (f ((args.map seenArg).map (VArg.at shape idx))).getD k r0 := by
              intro l
              induction l with
              | nil => rfl
              | cons i l ih =>
                rw [List.filterMap_cons, List.map_cons, ih]
                have hk' : k < (f ((args.map seenArg).map (VArg.at shape i))).length := by rw [hf]; exact List.mem_range.1 hk
                simp only [Function.comp_apply]
                rw [List.getElem?_eq_getElem hk', List.getD_eq_getElem _ _ hk']
            exact this _
          rw [hdat]
          have hlen : (D k).length = size shape := by simp only [D]; rw [List.length_map, length_indices]
          unfold pyOutput
          split
          · rw [Arr.reshapeTo_eq _ hlen]
          · rename_i hl
            have : ∃ n, shape = [n] := by
              match shape, hs, hl with
              | [n], _, _ => exact ⟨n, rfl⟩
              | _ :: _ :: _, _, hl => simp at hl
            obtain ⟨n, rfl⟩ := this
            rw [hlen]; simp [size]
      · intro i hi
        rw [List.mem_range, sizeOf_eq] at hi
        have hin : InShape shape (flatToIndices i shape) := by
          have hm : flatToIndices i shape ∈ indices shape := by
            rw [← map_flatToIndices]; exact List.mem_map.2 ⟨i, by rw [List.mem_range, sizeOf_eq]; exact hi, rfl⟩
          exact mem_indices.1 hm
        rw [← arg_value hw hb hin, List.map_map]
        congr 2
        refine List.map_congr_left fun x _ => ?_
        cases x <;> rfl
    · intro x hx
      cases x with
      | obj x => rfl
      | arr h =>
        rw [CallArg.spread, (bview_spec (hw h hx) (isBroadcastAll_to hb (by
          rw [arrShapes_seen]; exact List.mem_map.2 ⟨h, mem_filterMap_arr.2 hx, rfl⟩))).1]
        rfl
  · rw [List.getElem?_map, List.getElem?_range hk]; rfl

/-- C66: a wrong number of arguments is an error. -/
theorem C66_frompyfunc_arity (nin nout : Nat) (f : List V → Option (List R)) (args : List (CallArg V))
    (h : args.length ≠ nin) : frompyfuncCall nin nout f args = none := by
  unfold frompyfuncCall; rw [if_pos h]

/-- For an array without axes the result has an axis of length 1. -/
theorem C66_frompyfunc_zero_dim_counterexample :
    frompyfuncCall 1 1 (fun (xs : List Int) => some [xs.sum + 1]) [.arr ⟨fun a : Int => a, View.fresh [] 1⟩] =
      some (.arrays [⟨[1], [1]⟩]) := by decide +kernel

-- divmod of a column and a number
example : frompyfuncCall 2 2 (fun xs : List Int => some [xs.getD 0 0 / xs.getD 1 1, xs.getD 0 0 % xs.getD 1 1])
    [.arr ⟨fun a : Int => a + 5, View.fresh [2, 2] 1⟩, .obj 3] =
      some (.arrays [⟨[2, 2], [1, 2, 2, 2]⟩, ⟨[2, 2], [2, 0, 1, 2]⟩]) := by decide +kernel

/-! ### vectorize with a signature -/

/-- C66 (partial): with a signature such as `(n),(n)->()` and operands that all have the same loop axes, the
entry at each loop index is the function of the lanes of the operands at that index.  Missing: loop axes
that have to be broadcast, and empty ones (the counterexamples below). -/
theorem C66_vectorize_signature_partial (rd : α → K) (wr : K → α) (hrw : ∀ x, wr (rd x) = x) (wrOut : K → β)
    (f : List (List α) → K) (args : List (Held α)) (hne : args ≠ []) (loop : List Nat) (hl : loop ≠ []) (h0 : 0 ∉ loop)
    (hargs : ∀ h ∈ args, h.view.WF ∧ ∃ n, h.view.shape = loop ++ [n]) :
    ∃ A, vectorizeSig rd wr wrOut (fun ls => some (f ls)) args = some (.arrays A) ∧
      A.Is ⟨loop, fun l => wrOut (f (args.map fun h => h.nd.lane loop.length l))⟩ := by
  have h0' : size loop ≠ 0 := by
    clear hl hargs
    induction loop with
    | nil => simp [size]
    | cons n s ih =>
      rw [List.mem_cons, not_or] at h0
      have := ih h0.2
      simp only [size]
      exact Nat.mul_ne_zero (fun e => h0.1 e.symm) this
  cases args with
  | nil => exact absurd rfl hne
  | cons first rest =>
    have hfs : first.view.shape.dropLast = loop := by
      obtain ⟨-, n, hn⟩ := hargs first (by simp)
      rw [hn, List.dropLast_concat]
    generalize hargs' : first :: rest = args at hargs ⊢
    have hslice : ∀ l, InShape loop l → args.mapM (coreSlice rd wr l) = some (args.map fun h => h.nd.lane loop.length l) := by
      intro l hi
      refine mapM_of_some fun h hh => ?_
      obtain ⟨hw, n, hn⟩ := hargs h hh
      have hll := hi.length_eq
      have hlen : h.view.shape.length = loop.length + 1 := by rw [hn]; simp
      have hln : l ≠ [] := by intro e; rw [e] at hll; exact hl (List.eq_nil_of_length_eq_zero hll.symm)
      unfold coreSlice
      dsimp only
      rw [if_neg (by simpa using hln), if_neg (by omega)]
      have e1 : h.view.shape.length - 1 = loop.length := by omega
      rw [e1, sliceAlongAxis_eq rd h.mem hw (by omega) (by
        rw [hn, List.eraseIdx_append_of_length_le (by omega), Nat.sub_self]; simpa using hi), List.map_map]
      congr 1
      conv_rhs => rw [← List.map_id (h.nd.lane loop.length l)]
      exact List.map_congr_left fun x _ => hrw x
    refine ⟨⟨loop, (indices loop).map fun l => wrOut (f (args.map fun h => h.nd.lane loop.length l))⟩, ?_, rfl, rfl⟩
    subst hargs'
    unfold vectorizeSig
    dsimp only
    rw [hfs, if_neg h0]
    have hmax : max (Rumpy.sizeOf loop) 1 = Rumpy.sizeOf loop := by rw [sizeOf_eq]; omega
    rw [hmax]
    rw [mapM_flat loop fun idx => do
        let slices ← (first :: rest).mapM (coreSlice rd wr idx)
        some (f slices)]
    rw [mapM_of_some (g := fun l => f ((first :: rest).map fun h => h.nd.lane loop.length l))]
    · change (if loop.isEmpty = true then _ else _) = _
      rw [if_neg (by simpa using hl), Arr.reshapeTo_eq _ (by rw [List.length_map, List.length_map, length_indices]), List.map_map]
      rfl
    · intro l hi
      rw [hslice l (mem_indices.1 hi)]; rfl

/-- The loop axes are those of the first operand: a vector and a matrix are not broadcast, the function is
called once with the vector and with the whole matrix. -/
theorem C66_vectorize_signature_counterexample :
    vectorizeSig (id : Int → Int) id (id : Int → Int) (fun ls => some ((ls.flatMap id).length : Int))
      [⟨fun a => a, View.fresh [3] 1⟩, ⟨fun a => a, View.fresh [2, 3] 1⟩] = some (.value 9) := by decide +kernel

/-- An empty loop axis is a division by zero. -/
theorem C66_vectorize_signature_empty_counterexample (f : List (List Int) → Option Int) :
    vectorizeSig (id : Int → Int) id (id : Int → Int) f [⟨fun a => a, View.fresh [0, 3] 1⟩] = none := rfl

-- the dot products of the rows of two matrices
example : vectorizeSig (id : Int → Int) id (id : Int → Int)
    (fun | [x, y] => some (List.zipWith (· * ·) x y).sum | _ => none)
    [⟨fun a => a, View.fresh [2, 2] 1⟩, ⟨fun a => a + 1, View.fresh [2, 2] 1⟩] = some (.arrays ⟨[2], [2, 18]⟩) := by
  decide +kernel

end Props
