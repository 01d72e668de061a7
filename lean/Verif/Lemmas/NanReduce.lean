import Verif.Model.NanReduce
import Verif.Spec.NanReduce
import Verif.Spec.Sort
import Verif.Lemmas.Moments
import Verif.Props.Reduce
import Verif.Lemmas.ArgReduce
import Verif.Lemmas.Select
/-! # Lemmas: NaN-skipping reductions -/

namespace Rumpy
open Spec

/-! ### Lanes -/

theorem numbers_cons_none (l : List (Option α)) : numbers (none :: l) = numbers l := rfl
theorem numbers_cons_some (x : α) (l : List (Option α)) : numbers (some x :: l) = x :: numbers l := rfl

theorem mem_numbers {l : List (Option α)} {x : α} : x ∈ numbers l ↔ some x ∈ l := by simp [numbers]

theorem nanLane_eq (op : α → α → α) : ∀ (l : List (Option α)) (init : α), nanLane op init l = (numbers l).foldl op init
  | [], _ => rfl
  | none :: l, init => nanLane_eq op l init
  | some x :: l, init => nanLane_eq op l (op init x)

theorem nanSumCount_eq [Field K] (l : List (Option K)) : nanSumCount l = ((numbers l).sum, (numbers l).length) := by
  have : ∀ (l : List (Option K)) (s : K × Nat), l.foldl countStep s = (s.1 + (numbers l).sum, s.2 + (numbers l).length) := by
    intro l
    induction l with
    | nil => intro s; simp [numbers]
    | cons v l ih =>
      intro s
      cases v with
      | none => exact ih s
      | some x =>
        rw [List.foldl_cons, ih, countStep, numbers_cons_some, List.sum_cons, List.length_cons]
        simp only [Prod.mk.injEq]
        exact ⟨by ring, by omega⟩
  unfold nanSumCount
  rw [this]
  simp

theorem numbers_length_zero {l : List (Option α)} : (numbers l).length = 0 ↔ numbers l = [] := List.length_eq_zero_iff

theorem nanMeanLane_eq [Field K] (l : List (Option K)) : nanMeanLane l = nanMeanOf l := by
  unfold nanMeanLane nanMeanOf
  dsimp only
  rw [nanSumCount_eq]
  simp only [numbers_length_zero]
  rfl

theorem sq_fold [Field K] (mean : K) : ∀ (l : List (Option K)) (a : K), l.foldl (squareStep mean) a = a + ((numbers l).map fun x => (x - mean) ^ 2).sum
  | [], a => by simp [numbers]
  | none :: l, a => sq_fold mean l a
  | some x :: l, a => by
    rw [List.foldl_cons, sq_fold mean l, squareStep, numbers_cons_some, List.map_cons, List.sum_cons]
    ring

theorem nanVarLane_eq [Field K] (l : List (Option K)) : nanVarLane l = nanVarOf l := by
  unfold nanVarLane nanVarOf
  dsimp only
  rw [nanSumCount_eq, sq_fold]
  simp only [numbers_length_zero, zero_add]
  unfold momentOf meanOf
  rw [List.length_map]

theorem nanMax_fold [LinearOrder α] : ∀ (l : List (Option α)) (s : α × Bool),
    l.foldl (foundStep (maxCombine id)) s = ((numbers l).foldl (maxCombine id) s.1, s.2 || !(numbers l).isEmpty)
  | [], s => by simp [numbers]
  | none :: l, s => nanMax_fold l s
  | some x :: l, s => by
    rw [List.foldl_cons, nanMax_fold l, foundStep, numbers_cons_some]
    simp

theorem maxCombine_eq [LinearOrder α] (a b : α) : maxCombine id a b = max a b := by
  unfold maxCombine
  simp only [id]
  split
  · next h => exact (max_eq_right h.le).symm
  · next h => exact (max_eq_left (not_lt.1 h)).symm

theorem foldl_max_bot {α : Type} [LinearOrder α] [OrderBot α] {l : List α} (hl : l ≠ []) :
    l.foldl (maxCombine id) ⊥ ∈ l ∧ ∀ x ∈ l, x ≤ l.foldl (maxCombine id) ⊥ := by
  obtain ⟨h1, h2, h3⟩ := Props.foldl_max (id : α → α) l ⊥
  refine ⟨?_, h3⟩
  rcases h1 with h1 | h1
  · cases l with
    | nil => exact absurd rfl hl
    | cons x l =>
      have := h3 x (by simp)
      rw [h1] at this ⊢
      have hx : x = ⊥ := le_antisymm this bot_le
      rw [← hx]
      simp
  · exact h1

theorem nanExtremeLane_max {α : Type} [LinearOrder α] [OrderBot α] (l : List (Option α)) : IsNanMax l (nanExtremeLane (maxCombine id) ⊥ l) := by
  unfold nanExtremeLane
  dsimp only
  rw [nanMax_fold]
  by_cases h : numbers l = []
  · rw [h, if_neg (by simp)]
    intro x hx
    cases x with
    | none => rfl
    | some x => exact absurd (mem_numbers.2 hx) (by rw [h]; simp)
  · have h' : (numbers l).isEmpty = false := by simpa using h
    rw [h', if_pos (by simp)]
    obtain ⟨h1, h2⟩ := foldl_max_bot h
    exact ⟨mem_numbers.1 h1, fun x hx => h2 x (mem_numbers.2 hx)⟩

/-! ### Positions -/

theorem nanArg_inv [LinearOrder α] (l : List (Option α)) :
    let s := l.zipIdx.foldl (pickStep fun x b => decide (b < x)) (none, 0)
    (s.1 = none → (∀ x ∈ l, x = none) ∧ s.2 = 0) ∧
    ∀ m, s.1 = some m → l[s.2]? = some (some m) ∧ (∀ x, some x ∈ l → x ≤ m) ∧ ∀ j < s.2, ∀ x, l[j]? = some (some x) → x < m := by
  induction l using List.reverseRecOn with
  | nil => exact ⟨fun _ => ⟨by simp, rfl⟩, fun m h => by cases h⟩
  | append_singleton l v ih =>
    dsimp only at ih ⊢
    rw [List.zipIdx_append, List.foldl_append]
    generalize hs : l.zipIdx.foldl (pickStep fun x b => decide (b < x)) (none, 0) = s at ih
    obtain ⟨i1, i2⟩ := ih
    simp only [List.zipIdx_cons, List.zipIdx_nil, List.foldl_cons, List.foldl_nil, Nat.zero_add, pickStep, betterStep]
    have old : ∀ {j : Nat}, j < l.length → (l ++ [v])[j]? = l[j]? := fun hj => List.getElem?_append_left hj
    have hlt : ∀ {j : Nat} {y : Option α}, l[j]? = some y → j < l.length := fun h => (List.getElem?_eq_some_iff.1 h).1
    cases v with
    | none =>
      dsimp only
      refine ⟨fun h => ?_, fun m h => ?_⟩
      · obtain ⟨a, b⟩ := i1 h
        exact ⟨by intro x hx; rcases List.mem_append.1 hx with hx | hx; exact a x hx; simpa using hx, b⟩
      · obtain ⟨a, b, c⟩ := i2 m h
        refine ⟨by rw [old (hlt a)]; exact a, fun x hx => ?_, fun j hj x hx => ?_⟩
        · rcases List.mem_append.1 hx with hx | hx
          · exact b x hx
          · simp at hx
        · exact c j hj x (by rw [← old (lt_trans hj (hlt a))]; exact hx)
    | some x =>
      dsimp only
      have hnew : (l ++ [some x])[l.length]? = some (some x) := by simp
      cases hb : s.1 with
      | none =>
        dsimp only
        refine ⟨fun h => (by cases h), fun m h => ?_⟩
        have hm : x = m := Option.some.inj h
        subst hm
        obtain ⟨a, -⟩ := i1 hb
        refine ⟨hnew, fun y hy => ?_, fun j hj y hy => ?_⟩
        · rcases List.mem_append.1 hy with hy | hy
          · cases a _ hy
          · have : y = x := by simpa using hy
            exact this.le
        · rw [old hj] at hy
          cases a _ (List.mem_of_getElem? hy)
      | some bv =>
        obtain ⟨a, b, c⟩ := i2 bv hb
        dsimp only
        by_cases hlt' : bv < x
        · rw [if_pos (by simpa using hlt')]
          refine ⟨fun h => (by cases h), fun m h => ?_⟩
          have hm : x = m := Option.some.inj h
          subst hm
          refine ⟨hnew, fun y hy => ?_, fun j hj y hy => ?_⟩
          · rcases List.mem_append.1 hy with hy | hy
            · exact (b y hy).trans hlt'.le
            · have : y = x := by simpa using hy
              exact this.le
          · rw [old hj] at hy
            exact lt_of_le_of_lt (b y (List.mem_of_getElem? hy)) hlt'
        · rw [if_neg (by simpa using hlt')]
          refine ⟨fun h => (by rw [hb] at h; cases h), fun m h => ?_⟩
          rw [hb] at h
          have hm : bv = m := Option.some.inj h
          subst hm
          refine ⟨by rw [old (hlt a)]; exact a, fun y hy => ?_, fun j hj y hy => ?_⟩
          · rcases List.mem_append.1 hy with hy | hy
            · exact b y hy
            · have : y = x := by simpa using hy
              rw [this]; exact not_lt.1 hlt'
          · exact c j hj y (by rw [← old (lt_trans hj (hlt a))]; exact hy)

theorem nanArgLane_max [LinearOrder α] (l : List (Option α)) :
    ((∃ x, some x ∈ l) → FirstNanMax l (nanArgLane (fun x b => decide (b < x)) l)) ∧
    ((∀ x ∈ l, x = none) → nanArgLane (fun x b => decide (b < x)) l = 0) := by
  have h := nanArg_inv l
  dsimp only at h
  obtain ⟨h1, h2⟩ := h
  unfold nanArgLane
  constructor
  · rintro ⟨x, hx⟩
    cases hs : (l.zipIdx.foldl (pickStep fun x b => decide (b < x)) (none, 0)).1 with
    | none => cases (h1 hs).1 _ hx
    | some m => exact ⟨m, h2 m hs⟩
  · intro hn
    cases hs : (l.zipIdx.foldl (pickStep fun x b => decide (b < x)) (none, 0)).1 with
    | none => exact (h1 hs).2
    | some m => cases hn _ (List.mem_of_getElem? (h2 m hs).1)

theorem nanArgAll_inv [LinearOrder α] (init : α) (hinit : ∀ x, init ≤ x) (l : List (Option α)) :
    let s := l.zipIdx.foldl (betterStep fun x b => decide (b < x)) (init, none)
    (s.2 = none → s.1 = init ∧ ∀ x, some x ∈ l → x = init) ∧
    ∀ k, s.2 = some k → init < s.1 ∧ l[k]? = some (some s.1) ∧ (∀ x, some x ∈ l → x ≤ s.1) ∧ ∀ j < k, ∀ x, l[j]? = some (some x) → x < s.1 := by
  induction l using List.reverseRecOn with
  | nil => exact ⟨fun _ => ⟨rfl, by simp⟩, fun m h => by cases h⟩
  | append_singleton l v ih =>
    dsimp only at ih ⊢
    rw [List.zipIdx_append, List.foldl_append]
    generalize hs : l.zipIdx.foldl (betterStep fun x b => decide (b < x)) (init, none) = s at ih
    obtain ⟨i1, i2⟩ := ih
    simp only [List.zipIdx_cons, List.zipIdx_nil, List.foldl_cons, List.foldl_nil, Nat.zero_add, pickStep, betterStep]
    have old : ∀ {j : Nat}, j < l.length → (l ++ [v])[j]? = l[j]? := fun hj => List.getElem?_append_left hj
    have hlt : ∀ {j : Nat} {y : Option α}, l[j]? = some y → j < l.length := fun h => (List.getElem?_eq_some_iff.1 h).1
    have hall : ∀ y, some y ∈ l → y ≤ s.1 := by
      intro y hy
      cases h2 : s.2 with
      | none => obtain ⟨a, b⟩ := i1 h2; rw [b y hy]; exact hinit _
      | some k => exact (i2 k h2).2.2.1 y hy
    cases v with
    | none =>
      dsimp only
      refine ⟨fun h => ?_, fun k h => ?_⟩
      · obtain ⟨a, b⟩ := i1 h
        exact ⟨a, by intro x hx; rcases List.mem_append.1 hx with hx | hx; exact b x hx; simp at hx⟩
      · obtain ⟨z, a, b, c⟩ := i2 k h
        refine ⟨z, by rw [old (hlt a)]; exact a, fun x hx => ?_, fun j hj x hx => ?_⟩
        · rcases List.mem_append.1 hx with hx | hx
          · exact b x hx
          · simp at hx
        · exact c j hj x (by rw [← old (lt_trans hj (hlt a))]; exact hx)
    | some x =>
      dsimp only
      have hnew : (l ++ [some x])[l.length]? = some (some x) := by simp
      by_cases hlt' : s.1 < x
      · rw [if_pos (by simpa using hlt')]
        refine ⟨fun h => (by cases h), fun k h => ?_⟩
        have hk : l.length = k := Option.some.inj h
        subst hk
        refine ⟨lt_of_le_of_lt (hinit _) hlt', hnew, fun y hy => ?_, fun j hj y hy => ?_⟩
        · rcases List.mem_append.1 hy with hy | hy
          · exact (hall y hy).trans hlt'.le
          · have : y = x := by simpa using hy
            exact this.le
        · rw [old hj] at hy
          exact lt_of_le_of_lt (hall y (List.mem_of_getElem? hy)) hlt'
      · rw [if_neg (by simpa using hlt')]
        refine ⟨fun h => ?_, fun k h => ?_⟩
        · obtain ⟨a, b⟩ := i1 h
          refine ⟨a, fun y hy => ?_⟩
          rcases List.mem_append.1 hy with hy | hy
          · exact b y hy
          · have : y = x := by simpa using hy
            rw [this]
            exact le_antisymm (by rw [← a]; exact not_lt.1 hlt') (hinit _)
        · obtain ⟨z, a, b, c⟩ := i2 k h
          refine ⟨z, by rw [old (hlt a)]; exact a, fun y hy => ?_, fun j hj y hy => ?_⟩
          · rcases List.mem_append.1 hy with hy | hy
            · exact b y hy
            · have : y = x := by simpa using hy
              rw [this]; exact not_lt.1 hlt'
          · exact c j hj y (by rw [← old (lt_trans hj (hlt a))]; exact hy)

/-! ### Along an axis -/

theorem nanIndex_eq {ndim axis : Nat} (hax : axis < ndim) {outer : List Nat} {j : Nat} (h : outer.length = ndim - 1) :
    nanIndex ndim axis outer j = outer.insertIdx axis j := by
  unfold nanIndex
  rw [Nat.min_eq_left (by omega)]
  have hl : (outer.take axis).length = axis := by rw [List.length_take]; omega
  have e1 : (if axis < ndim - 1 then outer.drop axis else []) = outer.drop axis := by
    split
    · rfl
    · rw [List.drop_eq_nil_of_le (by omega)]
  rw [e1]
  have e := insertIdx_append_self (outer.take axis) (outer.drop axis) j
  rw [hl, List.take_append_drop] at e
  rw [e, List.append_assoc, List.set_append_right _ _ (by omega), hl, Nat.sub_self]
  simp

theorem nanAxis_eq {f : List (Option α) → β} {zero : β} {h : Held (Option α)} {axis : Nat} (hax : axis < h.view.shape.length)
    (hn : h.view.shape.getD axis 0 ≠ 0) :
    nanAxis f zero h axis = some ⟨if (h.view.shape.eraseIdx axis).isEmpty then [1] else h.view.shape.eraseIdx axis,
      (indices (h.view.shape.eraseIdx axis)).map fun idx => f (h.nd.lane axis idx)⟩ := by
  unfold nanAxis
  rw [if_pos hax]
  dsimp only
  rw [sizeOf_eq, outShape_size]
  by_cases h0 : size (h.view.shape.eraseIdx axis) = 0
  · rw [if_pos (.inl h0), h0]
    have : indices (h.view.shape.eraseIdx axis) = [] := List.eq_nil_of_length_eq_zero (by rw [length_indices, h0])
    rw [this]
    rfl
  · rw [if_neg (by tauto), writes_odometer _ (fun i : List Nat => f ((List.range (h.view.shape.getD axis 0)).map fun j =>
      h.mem (h.view.addr (nanIndex h.view.shape.length axis i j)))) _ (by rw [List.length_replicate, outShape_size])]
    refine congrArg (fun d => some (Arr.mk _ d)) ?_
    by_cases he : (h.view.shape.eraseIdx axis).isEmpty
    · have hl : h.view.shape.length = 1 := by
        have := congrArg List.length (List.isEmpty_iff.1 he)
        rw [List.length_eraseIdx, if_pos hax] at this
        simp at this; omega
      have hax0 : axis = 0 := by omega
      subst hax0
      rw [if_pos he, List.isEmpty_iff.1 he, indices_singleton]
      show [f _] = [f _]
      congr 2
      refine List.map_congr_left fun j _ => ?_
      show h.mem (h.view.addr _) = h.mem (h.view.addr _)
      congr 2
      simp [nanIndex, hl]
    · rw [if_neg he]
      refine List.map_congr_left fun idx hi => ?_
      have hl := (mem_indices.1 hi).length_eq
      rw [List.length_eraseIdx, if_pos hax] at hl
      congr 1
      refine List.map_congr_left fun j _ => ?_
      rw [nanIndex_eq hax hl]
      rfl

/-- Two or more axes. -/
theorem nanAxis_is {f : List (Option α) → β} {zero : β} {h : Held (Option α)} {axis : Nat} (hax : axis < h.view.shape.length)
    (h2 : 2 ≤ h.view.shape.length) (hn : h.view.shape.getD axis 0 ≠ 0) :
    ∃ r, nanAxis f zero h axis = some r ∧ r.Is (lanes f h.nd axis) := by
  refine ⟨_, nanAxis_eq hax hn, ?_, rfl⟩
  show (if _ then _ else _) = h.view.shape.eraseIdx axis
  rw [if_neg]
  intro he
  have := congrArg List.length (List.isEmpty_iff.1 he)
  rw [List.length_eraseIdx, if_pos hax] at this
  simp at this
  omega

/-- One axis. -/
theorem nanAxis_last {f : List (Option α) → β} {zero : β} {h : Held (Option α)} {n : Nat} (hs : h.view.shape = [n]) (hn : n ≠ 0) :
    ∃ r, nanAxis f zero h 0 = some r ∧ r.Is ⟨[1], fun _ => f ((List.range n).map fun k => h.nd.get [k])⟩ := by
  refine ⟨_, nanAxis_eq (by rw [hs]; simp) (by rw [hs]; exact hn), ?_⟩
  rw [hs]
  refine ⟨rfl, ?_⟩
  show [f ((List.range (h.view.shape.getD 0 0)).map _)] = [_]
  rw [hs]
  rfl

/-! ### Several axes -/

/-- The reduction of the numbers. -/
def nanFold (op : α → α → α) (e : α) (l : List (Option α)) : Option α := some ((numbers l).foldl op e)

theorem numbers_flatMap (f : β → List (Option α)) (l : List β) : numbers (l.flatMap f) = l.flatMap fun j => numbers (f j) := by
  unfold numbers
  rw [List.filterMap_flatMap]

theorem laneFold_nan (op : α → α → α) (e : α) (h : Held (Option α)) (ax : Nat) (idx : List Nat) :
    laneFold (nanCombine op) (some e) h.mem h.view ax idx = nanFold op e (h.nd.lane ax idx) := by
  unfold nanFold numbers
  rw [← Props.foldl_nanCombine]
  unfold laneFold Nd.lane
  rw [List.foldl_map]
  rfl

theorem nanReduceStep_ok {α : Type} (float : Bool) {op : α → α → α} {e : α} (zero : α) (assoc : ∀ a b c, op (op a b) c = op a (op b c))
    (comm : ∀ a b, op a b = op b a) (ident : ∀ a, op e a = a) :
    StepOk (nanFold op e) (fun n => n ≠ 0) (nanReduceStep float op e zero) where
  perm h := congrArg some (perm_foldl assoc comm (h.filterMap _) e)
  one l := congrArg some (ident _)
  flat l f n _ := by
    unfold nanFold
    rw [numbers_flatMap, foldl_flatMap_op assoc comm ident]
    congr 2
    unfold numbers
    rw [List.filterMap_map]
    exact (congrFun List.filterMap_eq_map l).symm
  step h ax hw hi hax h2 hn := by
    unfold nanReduceStep
    cases float with
    | true =>
      rw [if_pos rfl]
      unfold reduceStep
      rw [if_pos hax]
      have kern := Props.nanCombine_kernel assoc comm ident
      refine ⟨_, rfl, ?_, ?_⟩
      · rw [reduceAxis_shape, if_neg]
        · rfl
        intro he
        have := congrArg List.length (List.isEmpty_iff.1 he)
        rw [List.length_eraseIdx, if_pos hax] at this
        simp at this
        omega
      · rw [reduceAxis_data kern h.mem hw hax]
        refine List.map_congr_left fun idx _ => ?_
        exact laneFold_nan op e h ax idx
    | false =>
      rw [if_neg (by simp)]
      obtain ⟨r, h1, h3⟩ := nanAxis_is (f := fun l => some (nanLane op e l)) (zero := some zero) hax h2 hn
      refine ⟨r, h1, ?_⟩
      rw [show (fun l => some (nanLane op e l)) = nanFold op e from funext fun l => by rw [nanLane_eq]; rfl] at h3
      exact h3
  last h n hw hi hs hn := by
    have hax : 0 < h.view.shape.length := by rw [hs]; simp
    unfold nanReduceStep
    cases float with
    | true =>
      rw [if_pos rfl]
      unfold reduceStep
      rw [if_pos hax]
      refine ⟨_, rfl, ?_, ?_⟩
      · rw [reduceAxis_shape, hs]; rfl
      · rw [reduceAxis_data (Props.nanCombine_kernel assoc comm ident) h.mem hw hax, hs]
        show [laneFold _ _ _ _ _ _] = [nanFold op e _]
        rw [laneFold_nan]
        unfold Nd.lane
        rw [show h.nd.shape = [n] from hs]
        rfl
    | false =>
      rw [if_neg (by simp)]
      obtain ⟨r, h1, h3⟩ := nanAxis_last (f := fun l => some (nanLane op e l)) (zero := some zero) hs hn
      refine ⟨r, h1, ?_⟩
      rw [nanLane_eq] at h3
      exact h3

end Rumpy
