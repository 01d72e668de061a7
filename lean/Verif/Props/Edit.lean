import Verif.Props.Rearrange
import Verif.Props.Concat
/-!
# C44: append, insert and delete
-/

namespace Props
open Spec Rumpy

theorem modify_same (l : List Nat) (i : Nat) : (l.modify i fun x => x) = l := List.modify_id i l

/-- Joining arrays gives any array that agrees with each piece at its place. -/
theorem concat_is {zero : α} {arrs : List (Nd α)} {axis : Nat} {r : Arr α} (h : concatenate zero arrs axis = some r)
    {nd : Nd α} {first : Nd α} (hf : arrs[0]? = some first)
    (hs : nd.shape = first.shape.set axis (arrs.map fun a => a.shape.getD axis 0).sum)
    (hg : ∀ k a, arrs[k]? = some a → ∀ idx, InShape a.shape idx →
      nd.get (idx.modify axis (· + joinOffset axis arrs k)) = a.get idx) : r.Is nd := by
  obtain ⟨h1, h2, h3, h4⟩ := C11_concatenate zero arrs axis r h
  have hsh : r.shape = nd.shape := by rw [h1 first hf, hs]
  rw [Arr.is_iff]
  refine ⟨hsh, by rw [h2, hsh], fun j hj => ?_⟩
  rw [← hsh] at hj
  obtain ⟨k, a, idx, hk, hi, rfl⟩ := h4 j hj
  rw [(h3 k a hk idx hi).2, hg k a hk idx hi]

theorem toList_one {nd : Nd α} {n : Nat} (h : nd.shape = [n]) : nd.toList = (List.range n).map fun i => nd.get [i] := by
  unfold Nd.toList
  rw [h, indices_singleton, List.map_map]
  rfl

theorem flatMap_get {arrs : List (Nd α)} {lens : List Nat} : (arrs.map (·.shape) = lens.map fun n => [n]) →
    ∀ k a, arrs[k]? = some a → ∀ n, a.shape = [n] → ∀ i, i < n →
      (arrs.flatMap Nd.toList)[i + joinOffset 0 arrs k]? = some (a.get [i]) := by
  induction arrs generalizing lens with
  | nil => intro _ k a hk; simp at hk
  | cons b arrs ih =>
    intro hl k a hk n hn i hi
    rcases lens with _ | ⟨m, lens⟩
    · simp at hl
    simp only [List.map_cons, List.cons.injEq] at hl
    obtain ⟨hb, hl⟩ := hl
    rw [List.flatMap_cons]
    have hbl : b.toList.length = m := by rw [toList_one hb]; simp
    cases k with
    | zero =>
      simp only [List.getElem?_cons_zero, Option.some.injEq] at hk
      subst hk
      rw [hb] at hn
      have : m = n := by simpa using hn
      subst this
      rw [List.getElem?_append_left (by simp [joinOffset, hbl]; exact hi), toList_one hb]
      simp [joinOffset, hi]
    | succ k =>
      simp only [List.getElem?_cons_succ] at hk
      have := ih hl k a hk n hn i hi
      have e : joinOffset 0 (b :: arrs) (k + 1) = m + joinOffset 0 arrs k := by
        simp [joinOffset, hb]
      rw [e, List.getElem?_append_right (by omega), hbl]
      rw [← this]
      congr 1
      omega

/-- Joining vectors is joining their lists of elements. -/
theorem concat_flat (zero : α) (arrs : List (Nd α)) (lens : List Nat) (hl : arrs.map (·.shape) = lens.map fun n => [n])
    (hne : arrs ≠ []) :
    ∃ r, concatenate zero arrs 0 = some r ∧ r.shape = [lens.sum] ∧ r.data = arrs.flatMap Nd.toList := by
  have hsh : ∀ a ∈ arrs, ∃ n, a.shape = [n] := by
    intro a ha
    have : a.shape ∈ arrs.map (·.shape) := List.mem_map.2 ⟨a, ha, rfl⟩
    rw [hl] at this
    obtain ⟨n, _, hn⟩ := List.mem_map.1 this
    exact ⟨n, hn.symm⟩
  have hsum : (arrs.map fun a => a.shape.getD 0 0).sum = lens.sum := by
    have : (arrs.map fun a => a.shape.getD 0 0) = lens := by
      have e : (arrs.map fun a => a.shape.getD 0 0) = (arrs.map (·.shape)).map fun s => s.getD 0 0 := by
        rw [List.map_map]; rfl
      rw [e, hl, List.map_map]
      simp [Function.comp_def]
    rw [this]
  have hok : (concatenate zero arrs 0).isSome := by
    rw [C11_concatenate_succeeds_iff]
    rcases arrs with _ | ⟨a, arrs⟩
    · exact absurd rfl hne
    obtain ⟨n, hn⟩ := hsh a (by simp)
    refine ⟨a, arrs, rfl, by simp [hn], fun b hb => ?_⟩
    obtain ⟨m, hm⟩ := hsh b (by simp [hb])
    refine ⟨by simp [hn, hm], fun i hi h0 => ?_⟩
    rw [hn] at hi
    simp at hi
    omega
  obtain ⟨r, hr⟩ := Option.isSome_iff_exists.1 hok
  obtain ⟨first, hf⟩ : ∃ first, arrs[0]? = some first := by
    rcases arrs with _ | ⟨a, arrs⟩
    · exact absurd rfl hne
    · exact ⟨a, rfl⟩
  obtain ⟨n0, hn0⟩ := hsh first (List.mem_of_getElem? hf)
  have his : r.Is ⟨[lens.sum], fun idx => (arrs.flatMap Nd.toList).getD (idx.getD 0 0) zero⟩ := by
    apply concat_is hr hf
    · rw [hn0, hsum]; rfl
    · intro k a hk idx hi
      obtain ⟨n, hn⟩ := hsh a (List.mem_of_getElem? hk)
      rw [hn] at hi
      obtain ⟨i, rfl, hi⟩ := inShape_one hi
      have := flatMap_get hl k a hk n hn i hi.1
      simp only [List.modify_zero_cons, List.getD_cons_zero]
      rw [List.getD, this, Option.getD_some]
  refine ⟨r, hr, his.1, ?_⟩
  rw [his.2]
  rw [toList_one rfl]
  have hlen : (arrs.flatMap Nd.toList).length = lens.sum := by
    rw [List.length_flatMap, ← hsum]
    congr 1
    apply List.map_congr_left
    intro a ha
    obtain ⟨n, hn⟩ := hsh a ha
    rw [toList_one hn, hn]; simp
  apply List.ext_getElem
  · simp [hlen]
  · intro i h1 h2
    simp only [List.getElem_map, List.getElem_range, List.getD_cons_zero]
    exact List.getD_eq_getElem _ _ h2

/-- The conditions under which the code flattens an array in row-major order: valid view, elements of
positive size, aligned strides for 8-byte dtypes, and not F-contiguous without being C-contiguous. -/
structure Flattens (eight : Bool) (h : Held α) : Prop where
  wf : h.view.WF
  item : 0 < h.view.item
  al : eight = true → Aligned h.view
  order : h.view.cFlag = true ∨ h.view.fFlag = false

theorem ravel_list {eight : Bool} {h : Held α} (hf : Flattens eight h) (zero : α) :
    ∃ f, ravelArr eight h zero = some f ∧ f.view.WF ∧ f.view.shape = [size h.view.shape] ∧
      f.view.strides = [(h.view.item : Int)] ∧ f.nd.toList = h.nd.toList ∧
      ∀ k, k < size h.view.shape → some (f.nd.get [k]) = h.nd.toList[k]? := by
  obtain ⟨f, h1, h2, h3, h4, h5, h6⟩ := ravelArr_toList eight h hf.wf hf.item hf.al hf.order zero
  refine ⟨f, h1, h2, h3, h4, ?_, h6⟩
  rw [toList_one (nd := f.nd) h3]
  apply List.ext_getElem?
  intro k
  by_cases hk : k < size h.view.shape
  · rw [← h6 k hk]; simp [hk]
  · rw [List.getElem?_eq_none (by simp; omega), List.getElem?_eq_none (by rw [Nd.length_toList]; exact Nat.le_of_not_lt hk)]

/-- A slice with step one of a flattened array. -/
theorem flat_slice {f : Held α} {n i : Nat} {l : List α} (hw : f.view.WF) (hs : f.view.shape = [n]) (hst : f.view.strides = [(i : Int)])
    (hl : l.length = n) (hg : ∀ k, k < n → some (f.nd.get [k]) = l[k]?) {a b : Nat} (hab : a ≤ b) (hb : b ≤ n) :
    ∃ g, f.sliceAxis 0 a b 1 = some g ∧ g.nd.shape = [b - a] ∧ g.nd.toList = (l.drop a).take (b - a) := by
  have hlen : View.sliceLen a b 1 = b - a := by
    have h := sliceLen_spec (start := (a : Int)) (stop := b) (step := 1) (by decide)
    refine h.unique fun k => ?_
    rw [if_pos (by decide)]; omega
  obtain ⟨w, h1, h2, _, _, _, h5, _⟩ := sliceAxis_denote f.mem (v := f.view) (axis := 0) (len := n) (st := (i : Int))
    (start := a) (stop := b) (step := 1) (by decide) (by rw [hs]; rfl) (by rw [hst]; rfl) (Or.inl (by omega)) (fun k _ => by omega)
  rw [hlen] at h2 h5
  have hsh : (Held.mk f.mem w).nd.shape = [b - a] := by
    show w.shape = _
    rw [h2, hs]; rfl
  refine ⟨⟨f.mem, w⟩, by unfold Held.sliceAxis; rw [h1]; rfl, hsh, ?_⟩
  rw [toList_one hsh]
  apply List.ext_getElem?
  intro k
  by_cases hk : k < b - a
  · have := h5.2 [k] (by show InShape w.shape [k]; rw [h2, hs]; exact ⟨hk, trivial⟩)
    have e : (Held.mk f.mem w).nd.get [k] = f.nd.get [a + k] := by
      show (w.denote f.mem).get [k] = _
      rw [this]
      show f.nd.get (List.modify [k] 0 _) = _
      simp only [List.modify_zero_cons]
      congr 2
      omega
    rw [List.getElem?_take_of_lt hk, List.getElem?_drop, ← hg (a + k) (by omega), ← e]
    simp [hk]
  · rw [List.getElem?_eq_none (by simp; omega), List.getElem?_eq_none (by simp; omega)]

theorem heldEmpty (item : Nat) (zero : α) : (Held.empty item zero).nd.shape = [0] ∧ (Held.empty item zero).nd.toList = [] :=
  ⟨rfl, rfl⟩

/-! ### append -/

/-- C44, proved part: `append(a, b)` is the elements of `a` in row-major order followed by those of `b`.
Missing: F-contiguous arrays, `C44_append_fortran_counterexample`. -/
theorem C44_append_flat_partial (eight : Bool) (a b : Held α) (ha : Flattens eight a) (hb : Flattens eight b) (zero : α) :
    ∃ r, appendArr eight a b none zero = some r ∧ r.shape = [size a.view.shape + size b.view.shape] ∧
      r.data = a.nd.toList ++ b.nd.toList := by
  obtain ⟨x, x1, _, x3, _, x5, _⟩ := ravel_list ha zero
  obtain ⟨y, y1, _, y3, _, y5, _⟩ := ravel_list hb zero
  obtain ⟨r, r1, r2, r3⟩ := concat_flat zero [x.nd, y.nd] [size a.view.shape, size b.view.shape]
    (by simp only [List.map_cons, List.map_nil]; rw [← x3, ← y3]; rfl) (by simp)
  refine ⟨r, ?_, by rw [r2]; simp, by rw [r3]; simp [x5, y5]⟩
  unfold appendArr
  dsimp only
  rw [x1, y1]
  exact r1

/-- C44: `append(a, b, axis)` is `b` put behind `a` along the axis. -/
theorem C44_append_axis (eight : Bool) (a b : Held α) (ax : Int) (r : Arr α) (zero : α)
    (h : appendArr eight a b (some ax) zero = some r) :
    ∃ axis, pyIndex a.view.shape.length ax = some axis ∧
      r.Is (a.nd.insertAlong axis (a.view.shape.getD axis 0) b.nd) := by
  unfold appendArr at h
  dsimp only at h
  rw [wrapAxis_eq] at h
  cases hax : pyIndex a.view.shape.length ax with
  | none => rw [hax] at h; simp at h
  | some axis =>
    rw [hax] at h
    dsimp only at h
    have hlt := pyIndex_lt hax
    refine ⟨axis, rfl, concat_is h (first := a.nd) rfl ?_ ?_⟩
    · show a.view.shape.modify axis _ = a.view.shape.set axis _
      rw [modify_eq_set _ _ _ hlt]
      simp [Held.nd, View.denote]
    · obtain ⟨f, r', he, _, hcomp⟩ := (C11_concatenate_succeeds_iff zero [a.nd, b.nd] axis).1 (by rw [h]; rfl)
      obtain ⟨rfl, rfl⟩ := List.cons.inj he
      have hbl := (hcomp b.nd (by simp)).1
      intro k c hk idx hi
      match k with
      | 0 =>
        simp only [List.getElem?_cons_zero, Option.some.injEq] at hk
        subst hk
        have e : idx.modify axis (· + joinOffset axis [a.nd, b.nd] 0) = idx := by
          simp [joinOffset, modify_same]
        rw [e]
        exact if_pos ((inShape_iff_getD.1 hi).2 axis hlt)
      | 1 =>
        simp only [List.getElem?_cons_succ, List.getElem?_cons_zero, Option.some.injEq] at hk
        subst hk
        have hil := hi.length_eq
        have hbl' : b.nd.shape.length = a.view.shape.length := hbl
        have hj : joinOffset axis [a.nd, b.nd] 1 = a.view.shape.getD axis 0 := by
          simp [joinOffset, Held.nd, View.denote]
        rw [hj]
        show (if (idx.modify axis (· + a.view.shape.getD axis 0)).getD axis 0 < _ then _
          else if (idx.modify axis (· + a.view.shape.getD axis 0)).getD axis 0 < _ then _ else _) = _
        rw [getD_modify_self (by omega), if_neg (by omega)]
        have := (inShape_iff_getD.1 hi).2 axis (by omega)
        rw [if_pos (by omega)]
        congr 1
        rw [modify_eq_set _ _ (· + a.view.shape.getD axis 0) (by omega), set_modify_self]
        simp only [Nat.add_sub_cancel]
        exact Rumpy.set_getD_self (by omega)
      | k + 2 => simp at hk

/-- C44: `append` along an axis is defined exactly when the axis exists and the other lengths agree. -/
theorem C44_append_axis_succeeds_iff (eight : Bool) (a b : Held α) (ax : Int) (zero : α) :
    (appendArr eight a b (some ax) zero).isSome ↔
      ∃ axis, pyIndex a.view.shape.length ax = some axis ∧ b.view.shape.length = a.view.shape.length ∧
        ∀ i, i < a.view.shape.length → i ≠ axis → b.view.shape.getD i 0 = a.view.shape.getD i 0 := by
  unfold appendArr
  dsimp only
  rw [wrapAxis_eq]
  cases hax : pyIndex a.view.shape.length ax with
  | none => simp
  | some axis =>
    dsimp only
    rw [C11_concatenate_succeeds_iff]
    constructor
    · rintro ⟨f, r, he, h1, h2⟩
      obtain ⟨rfl, rfl⟩ := List.cons.inj he
      exact ⟨axis, rfl, h2 b.nd (by simp)⟩
    · rintro ⟨axis', he, h2⟩
      rw [Option.some.injEq] at he
      subst he
      refine ⟨a.nd, [b.nd], rfl, pyIndex_lt hax, fun c hc => ?_⟩
      rw [List.mem_singleton] at hc
      subst hc
      exact h2

/-- The bytes 0, 1, 2, … of a buffer as an array. -/
def bytesOf (v : View) : Held Int := ⟨fun p => p, v⟩

example : Flattens true (bytesOf (View.fresh [2, 3] 1)) :=
  ⟨View.WF.fresh _ _, by decide, fun _ => fun s _ => by simp [bytesOf, View.fresh], Or.inl rfl⟩
example : appendArr true (bytesOf (View.fresh [2, 2] 1)) (bytesOf (View.fresh [1] 1)) none 0
    = some ⟨[5], [0, 1, 2, 3, 0]⟩ := by decide
example : appendArr true (bytesOf (View.fresh [2, 2] 1)) (bytesOf (View.fresh [2, 1] 1)) (some (-1)) 0
    = some ⟨[2, 3], [0, 1, 0, 2, 3, 1]⟩ := by decide

/-- C44 fails for a transposed matrix: `append(a.T, [])` must list `a.T` row by row, `[0, 2, 1, 3]`. -/
theorem C44_append_fortran_counterexample :
    appendArr true (bytesOf (View.fresh [2, 2] 1).transpose) (bytesOf (View.fresh [0] 1)) none 0
      = some ⟨[4], [0, 1, 2, 3]⟩ ∧
    (bytesOf (View.fresh [2, 2] 1).transpose).nd.toList = [0, 2, 1, 3] := by decide

/-! ### insert -/

theorem insertIdxOf_eq {n : Nat} {index : Int} {p : Nat} (h0 : 0 ≤ index) (h : insertPos n index = some p) :
    insertIdxOf n index = p ∧ p ≤ n := by
  unfold insertPos at h
  unfold insertIdxOf
  rw [if_neg (by omega)]
  split at h
  · rw [Option.some.injEq] at h; omega
  · split at h
    · rw [Option.some.injEq] at h; omega
    · rw [if_neg (by omega)] at h; simp at h

/-- C44, proved part: `insert(a, i, vals)` puts the elements of `vals` before element `i` of the flattened array,
for `0 ≤ i ≤ size`.  Missing: negative `i`, positions out of range and F-contiguous arrays, for which it is
false (`C44_insert_negative_counterexample`, `C44_insert_range_counterexample`). -/
theorem C44_insert_flat_partial (eight : Bool) (a vals : Held α) (ha : Flattens eight a) (hv : Flattens eight vals)
    (index : Int) (p : Nat) (h0 : 0 ≤ index) (hp : insertPos (size a.view.shape) index = some p) (zero : α) :
    ∃ r, insertArr eight a index vals none zero = some r ∧
      r.shape = [size a.view.shape + size vals.view.shape] ∧
      r.data = a.nd.toList.take p ++ vals.nd.toList ++ a.nd.toList.drop p := by
  obtain ⟨x, x1, x2, x3, x4, x5, x6⟩ := ravel_list ha zero
  obtain ⟨y, y1, _, y3, _, y5, _⟩ := ravel_list hv zero
  obtain ⟨hi, hle⟩ := insertIdxOf_eq h0 hp
  set n := size a.view.shape with hn
  have hlen : a.nd.toList.length = n := Nd.length_toList _
  have hb : ∃ g : Held α, (if p > 0 then x.sliceAxis 0 0 p 1 else some (Held.empty a.view.item zero)) = some g ∧
      g.nd.shape = [p] ∧ g.nd.toList = a.nd.toList.take p := by
    by_cases hp0 : p > 0
    · rw [if_pos hp0]
      have := flat_slice x2 x3 x4 hlen x6 (a := 0) (b := p) (by omega) hle
      simpa using this
    · rw [if_neg hp0]
      refine ⟨_, rfl, ?_, ?_⟩
      · rw [(heldEmpty _ _).1]; congr 1; omega
      · rw [(heldEmpty _ _).2, show p = 0 by omega]; rfl
  have hc : ∃ g : Held α, (if p < n then x.sliceAxis 0 p n 1 else some (Held.empty a.view.item zero)) = some g ∧
      g.nd.shape = [n - p] ∧ g.nd.toList = a.nd.toList.drop p := by
    by_cases hp0 : p < n
    · rw [if_pos hp0]
      obtain ⟨g, g1, g2, g3⟩ := flat_slice x2 x3 x4 hlen x6 (a := p) (b := n) hle (Nat.le_refl _)
      refine ⟨g, g1, g2, ?_⟩
      rw [g3, List.take_of_length_le (by simp [hlen])]
    · rw [if_neg hp0]
      refine ⟨_, rfl, ?_, ?_⟩
      · rw [(heldEmpty _ _).1]; congr 1; omega
      · rw [(heldEmpty _ _).2, List.drop_eq_nil_of_le (by omega)]
  obtain ⟨g, g1, g2, g3⟩ := hb
  obtain ⟨k, k1, k2, k3⟩ := hc
  obtain ⟨r, r1, r2, r3⟩ := concat_flat zero [g.nd, y.nd, k.nd] [p, size vals.view.shape, n - p]
    (by simp only [List.map_cons, List.map_nil]; rw [g2, k2, ← y3]; rfl) (by simp)
  have hs : Rumpy.sizeOf x.view.shape = n := by rw [x3]; simp [Rumpy.sizeOf]
  refine ⟨r, ?_, ?_, ?_⟩
  · unfold insertArr
    dsimp only
    rw [x1]
    simp only [Option.bind_eq_bind, Option.bind_some, hs, hi]
    by_cases q1 : p > 0 <;> by_cases q2 : p < n
    all_goals
      simp only [q1, q2, if_true, if_false] at g1 k1 ⊢
      first | rw [g1] | (rw [Option.some.injEq] at g1; rw [g1])
      try simp only [Option.bind_some]
      first | rw [k1] | (rw [Option.some.injEq] at k1; first | rw [k1] | (rw [← g1, ← k1] at r1; rw [← g1]))
      try simp only [Option.bind_some]
      rw [y1]
      exact r1
  · rw [r2]
    simp only [List.sum_cons, List.sum_nil, List.cons.injEq, and_true]
    omega
  · rw [r3]
    simp [g3, y5, k3]

example : insertPos 4 2 = some 2 ∧ insertArr true (bytesOf (View.fresh [2, 2] 1)) 2 (bytesOf (View.fresh [2] 1)) none 0
    = some ⟨[6], [0, 1, 0, 1, 2, 3]⟩ := by decide

/-- C44 fails for a negative index: `insert([0, 1, 2], -1, [0])` must put the new element before the last one,
`[0, 1, 0, 2]`; the code puts it at the end. -/
theorem C44_insert_negative_counterexample :
    insertPos 3 (-1) = some 2 ∧
    insertArr true (bytesOf (View.fresh [3] 1)) (-1) (bytesOf (View.fresh [1] 1)) none 0 = some ⟨[4], [0, 1, 2, 0]⟩ := by
  decide

/-- C44 fails for a position out of range: NumPy raises an error, the code appends. -/
theorem C44_insert_range_counterexample :
    insertPos 3 7 = none ∧
    insertArr true (bytesOf (View.fresh [3] 1)) 7 (bytesOf (View.fresh [1] 1)) none 0 = some ⟨[4], [0, 1, 2, 0]⟩ := by
  decide

/-- A slice with step one along an axis. -/
theorem axis_slice {a : Held α} {axis : Nat} {st : Int} (hax : axis < a.view.shape.length)
    (hst : a.view.strides[axis]? = some st) (hpos : 0 ≤ st) {x y : Nat} (hxy : x ≤ y) :
    ∃ g, a.sliceAxis axis x y 1 = some g ∧ g.nd.shape = a.view.shape.set axis (y - x) ∧
      ∀ idx, InShape (a.view.shape.set axis (y - x)) idx → g.nd.get idx = a.nd.get (idx.modify axis (· + x)) := by
  have hlen : View.sliceLen x y 1 = y - x := by
    have h := sliceLen_spec (start := (x : Int)) (stop := y) (step := 1) (by decide)
    refine h.unique fun k => ?_
    rw [if_pos (by decide)]; omega
  obtain ⟨w, h1, h2, _, _, _, h5, _⟩ := sliceAxis_denote a.mem (v := a.view) (axis := axis) (len := a.view.shape[axis]) (st := st)
    (start := x) (stop := y) (step := 1) (by decide) (List.getElem?_eq_getElem hax) hst (Or.inl hpos) (fun k _ => by omega)
  rw [hlen] at h2 h5
  refine ⟨⟨a.mem, w⟩, by unfold Held.sliceAxis; rw [h1]; rfl, h2, fun idx hi => ?_⟩
  have := h5.2 idx (by show InShape w.shape idx; rw [h2]; exact hi)
  show (w.denote a.mem).get idx = _
  rw [this]
  show a.nd.get _ = a.nd.get _
  congr 2
  funext k
  omega

/-- C44, proved part: `insert(a, i, vals, axis)` for C-contiguous `vals` whose elements fill `m` positions of the
axis: they are put, in row-major order, before position `i`.  Missing: negative `i`, positions out of range,
values that NumPy would broadcast (`C44_insert_scalar_counterexample`), reversed axes. -/
theorem C44_insert_axis_partial (eight : Bool) (a vals : Held α) (hvw : vals.view.WF)
    (hvc : vals.view.cFlag = true) (ax : Int) (axis : Nat) (hax : pyIndex a.view.shape.length ax = some axis)
    (st : Int) (hst : a.view.strides[axis]? = some st) (hpos : 0 ≤ st) (hsz : 0 < size a.view.shape)
    (index : Int) (p m : Nat) (h0 : 0 ≤ index) (hp : insertPos (a.view.shape.getD axis 0) index = some p)
    (hm : size vals.view.shape = size (a.view.shape.set axis m)) (zero : α) :
    ∃ r vr, insertArr eight a index vals (some ax) zero = some r ∧
      vr.shape = a.view.shape.set axis m ∧ vr.toList = vals.nd.toList ∧ r.Is (a.nd.insertAlong axis p vr) := by
  have hlt := pyIndex_lt hax
  obtain ⟨hi, hle⟩ := insertIdxOf_eq h0 hp
  set n := a.view.shape.getD axis 0 with hn
  have hrows : size a.view.shape = size (a.view.shape.eraseIdx axis) * n := by
    rw [hn, ← size_set_getD hlt, Rumpy.set_getD_self hlt]
  have hn0 : 0 < n := by
    rcases Nat.eq_zero_or_pos n with h | h
    · rw [h] at hrows; omega
    · exact h
  set R := size (a.view.shape.eraseIdx axis) with hR
  have hR0 : 0 < R := by
    rcases Nat.eq_zero_or_pos R with h | h
    · rw [h] at hrows; omega
    · exact h
  rw [size_set_getD hlt, ← hR] at hm
  have hval : size vals.view.shape / max (size a.view.shape / n) 1 = m := by
    rw [hrows, Nat.mul_div_cancel _ hn0, Nat.max_eq_left hR0, hm, Nat.mul_div_cancel_left _ hR0]
  have hresh : (vals.view.reshape (a.view.shape.set axis m)).isSome := by
    rw [C08_reshape_succeeds_iff]
    exact ⟨by rw [size_set_getD hlt, ← hR]; exact hm, Or.inl hvc⟩
  obtain ⟨w, hw⟩ := Option.isSome_iff_exists.1 hresh
  obtain ⟨w1, _, w3⟩ := C08_reshape_partial vals.mem vals.view w hvw _ hvc hw
  obtain ⟨b, b1, b2, b3⟩ := axis_slice (x := 0) (y := p) hlt hst hpos (by omega)
  obtain ⟨c, c1, c2, c3⟩ := axis_slice (x := p) (y := n) hlt hst hpos hle
  rw [Nat.sub_zero] at b2 b3
  set vr : Held α := ⟨vals.mem, w⟩ with hvr
  have hvs : vr.nd.shape = a.view.shape.set axis m := w1
  have hg : ∀ k, (a.view.shape.set axis k).getD axis 0 = k := fun k => getD_set_self hlt k
  have hok : (concatenate zero [b.nd, vr.nd, c.nd] axis).isSome := by
    rw [C11_concatenate_succeeds_iff]
    refine ⟨b.nd, [vr.nd, c.nd], rfl, by rw [b2]; simpa using hlt, fun d hd => ?_⟩
    have : ∃ k, d.shape = a.view.shape.set axis k := by
      rcases List.mem_cons.1 hd with rfl | hd
      · exact ⟨m, hvs⟩
      · rcases List.mem_singleton.1 hd with rfl
        exact ⟨_, c2⟩
    obtain ⟨k, hk⟩ := this
    refine ⟨by rw [hk, b2]; simp, fun i _ hne => ?_⟩
    rw [hk, b2]
    simp [List.getD, List.getElem?_set, Ne.symm hne]
  obtain ⟨r, hr⟩ := Option.isSome_iff_exists.1 hok
  refine ⟨r, vr.nd, ?_, hvs, w3, concat_is hr (first := b.nd) rfl ?_ ?_⟩
  · unfold insertArr
    dsimp only
    rw [wrapAxis_eq, hax]
    simp only [Option.bind_eq_bind, ← hn, hi, sizeOf_eq]
    rw [show ((0 : Int)) = ((0 : Nat) : Int) from rfl, b1]
    simp only [Option.bind_some]
    rw [c1]
    simp only [Option.bind_some]
    rw [if_neg (by omega), hval, hw]
    exact hr
  · show a.view.shape.modify axis _ = _
    rw [modify_eq_set _ _ _ hlt, b2, List.set_set, hvs, hg]
    simp only [List.map_cons, List.map_nil, List.sum_cons, List.sum_nil]
    rw [b2, c2, hvs, hg, hg, hg]
    congr 1
    omega
  · intro k d hk idx hi
    show (if (idx.modify axis (· + joinOffset axis [b.nd, vr.nd, c.nd] k)).getD axis 0 < p then _
      else if (idx.modify axis (· + joinOffset axis [b.nd, vr.nd, c.nd] k)).getD axis 0 < p + vr.nd.shape.getD axis 0 then _ else _) = _
    rw [hvs, hg]
    match k with
    | 0 =>
      simp only [List.getElem?_cons_zero, Option.some.injEq] at hk
      subst hk
      rw [b2] at hi
      have e : idx.modify axis (· + joinOffset axis [b.nd, vr.nd, c.nd] 0) = idx := by simp [joinOffset, modify_same]
      rw [e, if_pos ((Spec.inShape_set hlt).1 hi).2.1, b3 idx hi]
      congr 1
      exact (modify_same _ _).symm
    | 1 =>
      simp only [List.getElem?_cons_succ, List.getElem?_cons_zero, Option.some.injEq] at hk
      subst hk
      rw [hvs] at hi
      have h2 := (Spec.inShape_set hlt).1 hi
      have hj : joinOffset axis [b.nd, vr.nd, c.nd] 1 = p := by
        simp only [joinOffset, List.take_succ_cons, List.take_zero, List.map_cons, List.map_nil, List.sum_cons, List.sum_nil]
        rw [b2, hg]; rfl
      rw [hj, getD_modify_self (by omega), if_neg (by omega), if_pos (by omega)]
      congr 1
      rw [modify_eq_set _ _ (· + p) (by omega), set_modify_self]
      simp only [Nat.add_sub_cancel]
      exact Rumpy.set_getD_self (by omega)
    | 2 =>
      simp only [List.getElem?_cons_succ, List.getElem?_cons_zero, Option.some.injEq] at hk
      subst hk
      rw [c2] at hi
      have h2 := (Spec.inShape_set hlt).1 hi
      have hj : joinOffset axis [b.nd, vr.nd, c.nd] 2 = p + m := by
        simp only [joinOffset, List.take_succ_cons, List.take_zero, List.map_cons, List.map_nil, List.sum_cons, List.sum_nil]
        rw [b2, hvs, hg, hg]; rfl
      rw [hj, getD_modify_self (by omega), if_neg (by omega), if_neg (by omega), c3 idx hi]
      congr 1
      show List.modify (List.modify idx axis (· + (p + m))) axis (· - m) = _
      rw [modify_eq_set _ _ (· + (p + m)) (by omega), set_modify_self, modify_eq_set _ _ (· + p) (by omega)]
      congr 1
      omega
    | k + 3 => simp at hk

example : insertArr true (bytesOf (View.fresh [2, 2] 1)) 1 (bytesOf (View.fresh [2] 1)) (some 0) 0
    = some ⟨[3, 2], [0, 1, 0, 1, 2, 3]⟩ := by decide

/-- C44 fails for a scalar: NumPy's `insert(a, 1, 5, axis=0)` on a 2x2 array inserts a row of fives; the code
reports an error. -/
theorem C44_insert_scalar_counterexample :
    insertArr true (bytesOf (View.fresh [2, 2] 1)) 1 (bytesOf (View.fresh [1] 1)) (some 0) 0 = none := by decide

/-! ### delete -/

theorem deleteIdx_eq {n : Nat} {index : Int} {p : Nat} (h : pyIndex n index = some p) :
    (if index < 0 then max ((n : Int) + index) 0 else index).toNat = p ∧ p < n := by
  have := pyIndex_lt h
  unfold pyIndex at h
  split at h
  · rw [Option.some.injEq] at h; split <;> omega
  · split at h
    · rw [Option.some.injEq] at h; split <;> omega
    · simp at h

/-- C44, proved part: `delete(a, i)` is the flattened array without element `i`.  Missing: `i` out of range
(`C44_delete_range_counterexample`) and F-contiguous arrays. -/
theorem C44_delete_flat_partial (eight : Bool) (a : Held α) (ha : Flattens eight a) (index : Int) (p : Nat)
    (hp : pyIndex (size a.view.shape) index = some p) (zero : α) :
    ∃ r, deleteArr eight a index none zero = some r ∧ r.nd.shape = [size a.view.shape - 1] ∧
      r.nd.toList = a.nd.toList.eraseIdx p := by
  obtain ⟨x, x1, x2, x3, x4, x5, x6⟩ := ravel_list ha zero
  obtain ⟨hi, hlt⟩ := deleteIdx_eq hp
  set n := size a.view.shape with hn
  have hlen : a.nd.toList.length = n := Nd.length_toList _
  have hb : ∃ g : Held α, (if p > 0 then x.sliceAxis 0 0 p 1 else some (Held.empty a.view.item zero)) = some g ∧
      g.nd.shape = [p] ∧ g.nd.toList = a.nd.toList.take p := by
    by_cases hp0 : p > 0
    · rw [if_pos hp0]
      have := flat_slice x2 x3 x4 hlen x6 (a := 0) (b := p) (by omega) (by omega)
      simpa using this
    · rw [if_neg hp0]
      refine ⟨_, rfl, ?_, ?_⟩
      · rw [(heldEmpty _ _).1]; congr 1; omega
      · rw [(heldEmpty _ _).2, show p = 0 by omega]; rfl
  have hc : ∃ g : Held α, (if p + 1 < n then x.sliceAxis 0 (p + 1 : Nat) n 1 else some (Held.empty a.view.item zero)) = some g ∧
      g.nd.shape = [n - (p + 1)] ∧ g.nd.toList = a.nd.toList.drop (p + 1) := by
    by_cases hp0 : p + 1 < n
    · rw [if_pos hp0]
      obtain ⟨g, g1, g2, g3⟩ := flat_slice x2 x3 x4 hlen x6 (a := p + 1) (b := n) (by omega) (Nat.le_refl _)
      refine ⟨g, g1, g2, ?_⟩
      rw [g3, List.take_of_length_le (by simp [hlen])]
    · rw [if_neg hp0]
      refine ⟨_, rfl, ?_, ?_⟩
      · rw [(heldEmpty _ _).1]; congr 1; omega
      · rw [(heldEmpty _ _).2, List.drop_eq_nil_of_le (by omega)]
  obtain ⟨g, g1, g2, g3⟩ := hb
  obtain ⟨k, k1, k2, k3⟩ := hc
  obtain ⟨r, r1, r2, r3⟩ := concat_flat zero [g.nd, k.nd] [p, n - (p + 1)]
    (by simp only [List.map_cons, List.map_nil]; rw [g2, k2]) (by simp)
  have hs : Rumpy.sizeOf x.view.shape = n := by rw [x3]; simp [Rumpy.sizeOf]
  have hri : r.Is ⟨r.shape, fun idx => r.data.getD (idx.getD 0 0) zero⟩ := by
    refine ⟨rfl, ?_⟩
    have hdl : r.data.length = [p, n - (p + 1)].sum := by
      rw [r3]
      simp only [List.flatMap_cons, List.flatMap_nil, List.append_nil, List.length_append]
      rw [g3, k3]; simp [hlen]; omega
    rw [toList_one (n := [p, n - (p + 1)].sum) r2]
    apply List.ext_getElem
    · simpa using hdl
    · intro i h1 h2
      simp only [List.getElem_map, List.getElem_range, List.getD_cons_zero]
      exact (List.getD_eq_getElem _ _ h1).symm
  have hsame := hri.denote ha.item zero
  refine ⟨Held.of r a.view.item zero, ?_, ?_, ?_⟩
  · unfold deleteArr
    dsimp only
    rw [x1]
    simp only [Option.bind_eq_bind, Option.bind_some, hs, hi]
    rw [if_neg (by omega), if_neg (by omega)]
    by_cases q1 : p > 0 <;> by_cases q2 : p + 1 < n
    all_goals
      simp only [q1, q2, if_true, if_false] at g1 k1 ⊢
      first | rw [g1] | (rw [Option.some.injEq] at g1; rw [g1])
      try simp only [Option.bind_some]
      first | rw [k1] | (rw [Option.some.injEq] at k1; first | rw [k1] | (rw [← g1, ← k1] at r1; rw [← g1]))
      try simp only [Option.bind_some]
      rw [r1]
      try rfl
  · show r.shape = _
    rw [r2]
    simp only [List.sum_cons, List.sum_nil, List.cons.injEq, and_true]
    omega
  · have : (Held.of r a.view.item zero).nd.toList = r.data := by
      have e := Rumpy.Nd.Same.toList hsame
      exact e.trans hri.2.symm
    rw [this, r3, List.eraseIdx_eq_take_drop_succ]
    simp [g3, k3]

/-- C44, proved part: `delete(a, i, axis)` is the array without position `i` of the axis.  Missing: `i` out of
range, reversed axes. -/
theorem C44_delete_axis_partial (eight : Bool) (a : Held α) (hitem : 0 < a.view.item) (ax : Int) (axis : Nat)
    (hax : pyIndex a.view.shape.length ax = some axis)
    (st : Int) (hst : a.view.strides[axis]? = some st) (hpos : 0 ≤ st) (index : Int) (p : Nat)
    (hp : pyIndex (a.view.shape.getD axis 0) index = some p) (zero : α) :
    ∃ r, deleteArr eight a index (some ax) zero = some r ∧ r.nd.Same (a.nd.deleteAt axis p) := by
  have hlt := pyIndex_lt hax
  obtain ⟨hi, hpn⟩ := deleteIdx_eq hp
  set n := a.view.shape.getD axis 0 with hn
  obtain ⟨b, b1, b2, b3⟩ := axis_slice (x := 0) (y := p) hlt hst hpos (by omega)
  obtain ⟨c, c1, c2, c3⟩ := axis_slice (x := p + 1) (y := n) hlt hst hpos (by omega)
  rw [Nat.sub_zero] at b2 b3
  have hg : ∀ k, (a.view.shape.set axis k).getD axis 0 = k := fun k => getD_set_self hlt k
  have hok : (concatenate zero [b.nd, c.nd] axis).isSome := by
    rw [C11_concatenate_succeeds_iff]
    refine ⟨b.nd, [c.nd], rfl, by rw [b2]; simpa using hlt, fun d hd => ?_⟩
    rcases List.mem_singleton.1 hd with rfl
    refine ⟨by rw [c2, b2]; simp, fun i _ hne => ?_⟩
    rw [c2, b2]
    simp [List.getD, List.getElem?_set, Ne.symm hne]
  obtain ⟨r, hr⟩ := Option.isSome_iff_exists.1 hok
  have his : r.Is (a.nd.deleteAt axis p) := by
    refine concat_is hr (first := b.nd) rfl ?_ ?_
    · show a.view.shape.modify axis _ = _
      rw [modify_eq_set _ _ _ hlt, b2, List.set_set]
      simp only [List.map_cons, List.map_nil, List.sum_cons, List.sum_nil]
      rw [b2, c2, hg, hg]
      congr 1
      omega
    · intro k d hk idx hi
      match k with
      | 0 =>
        simp only [List.getElem?_cons_zero, Option.some.injEq] at hk
        subst hk
        rw [b2] at hi
        have h2 := (Spec.inShape_set hlt).1 hi
        have e : idx.modify axis (· + joinOffset axis [b.nd, c.nd] 0) = idx := by simp [joinOffset, modify_same]
        rw [e, b3 idx hi]
        show a.nd.get (idx.modify axis _) = a.nd.get _
        congr 1
        rw [modify_eq_set _ _ _ (by omega), modify_eq_set _ _ _ (by omega), if_pos h2.2.1]
        rfl
      | 1 =>
        simp only [List.getElem?_cons_succ, List.getElem?_cons_zero, Option.some.injEq] at hk
        subst hk
        rw [c2] at hi
        have h2 := (Spec.inShape_set hlt).1 hi
        have hj : joinOffset axis [b.nd, c.nd] 1 = p := by
          simp only [joinOffset, List.take_succ_cons, List.take_zero, List.map_cons, List.map_nil, List.sum_cons, List.sum_nil]
          rw [b2, hg]; rfl
        rw [hj, c3 idx hi]
        show a.nd.get (List.modify _ axis _) = a.nd.get _
        congr 1
        rw [modify_eq_set _ _ (· + p) (by omega), set_modify_self, if_neg (by omega), modify_eq_set _ _ _ (by omega)]
        congr 1
      | k + 2 => simp at hk
  refine ⟨Held.of r a.view.item zero, ?_, his.denote hitem zero⟩
  unfold deleteArr
  dsimp only
  rw [wrapAxis_eq, hax]
  simp only [Option.bind_eq_bind, ← hn, hi]
  rw [if_neg (by omega), if_neg (by omega), show ((0 : Int)) = ((0 : Nat) : Int) from rfl, b1]
  simp only [Option.bind_some]
  rw [c1]
  simp only [Option.bind_some]
  rw [hr]
  rfl

example : pyIndex 4 (-2) = some 2 ∧ ((deleteArr true (bytesOf (View.fresh [2, 2] 1)) (-2) none 0).map fun r => r.nd.toList)
    = some [0, 1, 3] := by decide
example : ((deleteArr true (bytesOf (View.fresh [2, 2] 1)) 0 (some 1) 0).map fun r => (r.nd.shape, r.nd.toList))
    = some ([2, 1], [1, 3]) := by decide

/-- C44 fails out of range: NumPy raises an error for `delete([0, 1, 2], 5)` and `delete([0, 1, 2], -7)`; the code
returns the array unchanged and the array without its first element. -/
theorem C44_delete_range_counterexample :
    pyIndex 3 5 = none ∧ pyIndex 3 (-7) = none ∧
    ((deleteArr true (bytesOf (View.fresh [3] 1)) 5 none 0).map fun r => r.nd.toList) = some [0, 1, 2] ∧
    ((deleteArr true (bytesOf (View.fresh [3] 1)) (-7) none 0).map fun r => r.nd.toList) = some [1, 2] := by decide

end Props
