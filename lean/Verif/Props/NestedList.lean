import Verif.Lemmas.NestedList
import Verif.Lemmas.Moments
import Verif.Lemmas.Float
import Mathlib.Tactic.Ring

/-!
# C80: arrays from nested lists of numbers, `tolist` and `item`
-/

namespace Props
open Spec Rumpy

theorem wrap64_id {i : Int} (h : InIntRange true 64 i) : wrap64 i = i := by
  unfold InIntRange at h
  rw [if_pos rfl] at h
  unfold wrap64
  rw [Int.bmod_eq_of_le (by omega) (by omega)]

theorem wrapInt_id {signed : Bool} {bits : Nat} (hb : 0 < bits) {i : Int} (h : InIntRange signed bits i) : wrapInt signed bits i = i := by
  obtain ⟨k, rfl⟩ : ∃ k, bits = k + 1 := ⟨bits - 1, by omega⟩
  unfold InIntRange at h
  unfold wrapInt
  cases signed with
  | true =>
    simp only [if_true, Nat.add_sub_cancel] at h ⊢
    have e : (2 : Int) ^ (k + 1) = 2 * 2 ^ k := by rw [pow_succ]; ring
    have e2 : ((2 ^ (k + 1) : Nat) : Int) = 2 * 2 ^ k := by push_cast; exact e
    exact Int.bmod_eq_of_le (by omega) (by omega)
  | false =>
    simp only [Bool.false_eq_true, if_false] at h ⊢
    exact Int.emod_eq_of_lt h.1 h.2

/-- C80.  Without `dtype`, a rectangular nested list of integers of 64 bits, of any depth, becomes
an integer array of the same shape, and the element at an index is the number at that place in the
list. -/
theorem C80_array_ints {s : List Nat} (hs : s ≠ []) (h0 : 0 ∉ s) (g : List Nat → Int) (hr : ∀ idx, InShape s idx → InIntRange true 64 (g idx)) :
    ∃ r, arrayOfPy none (.shaped s fun idx => .int (g idx)) = some (.int true 64, r) ∧ r.Is ⟨s, fun idx => .int (g idx)⟩ := by
  have hv : Visible s := fun n hn e => h0 (e ▸ List.dropLast_subset _ hn)
  have hk := inferKind_shaped (k := .int true 64) s (fun idx => PyNum.int (g idx)) h0 rfl
  obtain ⟨r, h1, h2⟩ := fromPyList_int none hs hv (get := fun idx => .int (g idx)) (g := g) (by rw [hk]; rfl) (fun idx hi => by
    have := hr idx hi
    unfold InIntRange at this
    rw [if_pos rfl] at this
    exact if_pos this)
  rw [hk] at h1 h2
  refine ⟨r, h1, h2.congr ⟨rfl, fun idx hi => ?_⟩⟩
  show PyNum.int (wrapInt true 64 (g idx)) = .int (g idx)
  rw [wrapInt_id (by decide) (hr idx hi)]

example : ((arrayOfPy none (.list [.list [.num (.int 1), .num (.int (2 ^ 53 + 1))], .list [.num (.int (-7)), .num (.int 4)]])).map fun r =>
    (r.1, r.2.shape, r.2.data)) = some (.int true 64, [2, 2], [.int 1, .int 9007199254740993, .int (-7), .int 4]) := by
  decide +kernel

/-- C80.  Without `dtype`, a rectangular nested list whose first number is a float and whose
integers are at most `2^53` becomes a float array with these values. -/
theorem C80_array_floats {s : List Nat} (hs : s ≠ []) (h0 : 0 ∉ s) (get : List Nat → PyNum) (v : List Nat → Rat)
    (hfirst : ∃ x, get (List.replicate s.length 0) = .float x)
    (hr : ∀ idx, InShape s idx → get idx = .float (v idx) ∨ ∃ i : Int, get idx = .int i ∧ i.natAbs ≤ 2 ^ 53 ∧ v idx = i) :
    ∃ r, arrayOfPy none (.shaped s get) = some (.float, r) ∧ r.Is ⟨s, fun idx => .float (v idx)⟩ := by
  have hv : Visible s := fun n hn e => h0 (e ▸ List.dropLast_subset _ hn)
  obtain ⟨x, hx⟩ := hfirst
  have hk := inferKind_shaped (k := .float) s get h0 (by rw [hx]; rfl)
  obtain ⟨r, h1, h2⟩ := fromPyList_float none hs hv (get := get) (g := v) (by rw [hk]; intro h; cases h) (fun idx hi => by
    rcases hr idx hi with e | ⟨i, e, hi', hv'⟩
    · rw [e]; rfl
    · rw [e, extractF64, intToF64_exact hi', if_pos (by
        have : (2 : Nat) ^ 53 < 2 ^ 1024 := Nat.pow_lt_pow_right (by decide) (by decide)
        omega), hv'])
  rw [hk] at h1 h2
  exact ⟨r, h1, h2⟩

example : (arrayOfPy none (.list [.num (.float (1 / 2)), .num (.int 3)])).map (fun r => (r.1, r.2.shape, r.2.data)) =
    some (.float, [2], [.float (1 / 2), .float 3]) := by
  decide +kernel

/-- C80.  Without `dtype`, a rectangular nested list of truth values becomes an array of them. -/
theorem C80_array_bools {s : List Nat} (hs : s ≠ []) (h0 : 0 ∉ s) (b : List Nat → Bool) :
    ∃ r, arrayOfPy none (.shaped s fun idx => .bool (b idx)) = some (.bool, r) ∧ r.Is ⟨s, fun idx => .bool (b idx)⟩ := by
  have hv : Visible s := fun n hn e => h0 (e ▸ List.dropLast_subset _ hn)
  have hk := inferKind_shaped (k := .bool) s (fun idx => PyNum.bool (b idx)) h0 rfl
  obtain ⟨r, h1, h2⟩ := fromPyList_float none hs hv (get := fun idx => .bool (b idx)) (g := fun idx => if b idx then 1 else 0)
    (by rw [hk]; intro h; cases h) (fun idx hi => rfl)
  rw [hk] at h1 h2
  refine ⟨r, h1, h2.congr ⟨rfl, fun idx hi => ?_⟩⟩
  show PyNum.bool (decide ((if b idx then (1 : Rat) else 0) ≠ 0)) = .bool (b idx)
  cases b idx <;> simp

/-- C80.  A nested list without numbers becomes an empty float array of the shape of the list. -/
theorem C80_array_empty {s : List Nat} (hv : Visible s) (h0 : 0 ∈ s) (get : List Nat → PyNum) :
    ∃ r, arrayOfPy none (.shaped s get) = some (.float, r) ∧ r.shape = s ∧ r.data = [] := by
  have hz : size s = 0 := (size_eq_zero_iff.mpr h0)
  have hno : ∀ idx, ¬ InShape s idx := by
    intro idx hi
    have := mem_indices.mpr hi
    have he : indices s = [] := List.length_eq_zero_iff.mp (by rw [length_indices, hz])
    rw [he] at this
    cases this
  have hk := inferKind_empty s get hv h0
  obtain ⟨r, h1, h2⟩ := fromPyList_float none (by rintro rfl; cases h0) hv (get := get) (g := fun _ => 0)
    (by rw [hk]; intro h; cases h) (fun idx hi => absurd hi (hno idx))
  rw [hk] at h1 h2
  refine ⟨r, h1, h2.1, ?_⟩
  rw [h2.2]
  exact List.length_eq_zero_iff.mp (by rw [Nd.length_toList]; exact hz)

example : (arrayOfPy none (.list [.list [], .list []])).map (fun r => (r.1, r.2.shape, r.2.data)) = some (.float, [2, 0], []) := by
  decide +kernel

/-- C80.  With an integer `dtype`, integers in its range are stored as they are. -/
theorem C80_array_dtype_partial {s : List Nat} (hs : s ≠ []) (hv : Visible s) (signed : Bool) {bits : Nat} (hb : 0 < bits) (g : List Nat → Int)
    (h64 : ∀ idx, InShape s idx → InIntRange true 64 (g idx)) (hr : ∀ idx, InShape s idx → InIntRange signed bits (g idx)) :
    ∃ r, arrayOfPy (some (.int signed bits)) (.shaped s fun idx => .int (g idx)) = some (.int signed bits, r) ∧ r.Is ⟨s, fun idx => .int (g idx)⟩ := by
  obtain ⟨r, h1, h2⟩ := fromPyList_int (some (.int signed bits)) hs hv (get := fun idx => .int (g idx)) (g := g) rfl (fun idx hi => by
    have := h64 idx hi
    unfold InIntRange at this
    rw [if_pos rfl] at this
    exact if_pos this)
  refine ⟨r, h1, h2.congr ⟨rfl, fun idx hi => ?_⟩⟩
  show PyNum.int (wrapInt signed bits (g idx)) = .int (g idx)
  rw [wrapInt_id hb (hr idx hi)]

/-- C80.  Numbers out of the range of the `dtype` are accepted; the same number becomes another one
when a float stands in the list; and integers from `2^63` on are not stored exactly in `uint64`. -/
theorem C80_array_dtype_counterexample :
    (arrayOfPy (some (.int false 8)) (.list [.num (.int 300)])).map (fun r => r.2.data) = some [.int 44] ∧
    (arrayOfPy (some (.int false 8)) (.list [.num (.int 300), .num (.float 0)])).map (fun r => r.2.data) = some [.int 255, .int 0] ∧
    (arrayOfPy (some (.int false 64)) (.list [.num (.int (2 ^ 63 + 1))])).map (fun r => r.2.data) = some [.int (2 ^ 63)] := by
  refine ⟨?_, ?_, ?_⟩ <;> decide +kernel

/-- C80.  No number of the list is left out or moved: the numbers of the array, in row-major order,
come one by one from the numbers of the list in order, whatever the shape of the list. -/
theorem C80_array_keeps_all {dtype : Option NumKind} {l : List PyData} {k : NumKind} {r : Arr PyNum} (h : fromPyList dtype l = some (k, r)) :
    (PyData.leavesAll l).mapM (fun x => (extractI64 x).map (storeI64 k)) = some r.data ∨
      (PyData.leavesAll l).mapM (fun x => (extractF64 x).map (storeF64 k)) = some r.data := by
  have key : ∀ {β : Type} (ex : PyNum → Option β) (st : β → PyNum) (l : List PyNum) (v : List β), l.mapM ex = some v →
      l.mapM (fun x => (ex x).map st) = some (v.map st) := by
    intro β ex st l
    induction l with
    | nil => intro v hv; cases hv; rfl
    | cons a l ih =>
      intro v hv
      rw [List.mapM_cons] at hv
      cases ha : ex a with
      | none => rw [ha] at hv; cases hv
      | some y =>
        rw [ha] at hv
        cases hr : l.mapM ex with
        | none => rw [hr] at hv; cases hv
        | some w =>
          rw [hr] at hv
          have : v = y :: w := by cases hv; rfl
          rw [List.mapM_cons, ih w hr, ha, this]
          rfl
  have hdata : ∀ (sh : List Nat) (d : List PyNum), (shapedOr sh d).data = d := by
    intro sh d
    unfold shapedOr
    split <;> rfl
  unfold fromPyList at h
  dsimp only at h
  generalize dtype.getD (inferKind l) = kind at h
  match l, h with
  | [], h => cases h; exact Or.inl rfl
  | .list l0 :: l, h =>
    dsimp only at h
    by_cases hi : isIntKind kind = true ∧ ∃ v, flatMany extractI64 (PyData.list l0 :: l) = some v
    · obtain ⟨hi, v, hv⟩ := hi
      rw [if_pos hi, hv] at h
      cases h
      left
      rw [hdata]
      have := flatMany_leaves extractI64 (PyData.list l0 :: l)
      rw [hv] at this
      exact key _ _ _ _ this.symm
    · have e : (if isIntKind kind = true then flatMany extractI64 (PyData.list l0 :: l) else none) = none := by
        split
        · next hh =>
          cases hv : flatMany extractI64 (PyData.list l0 :: l) with
          | none => rfl
          | some v => exact absurd ⟨hh, v, hv⟩ hi
        · rfl
      rw [e] at h
      dsimp only at h
      cases hv : flatMany extractF64 (PyData.list l0 :: l) with
      | none => rw [hv] at h; cases h
      | some v =>
        rw [hv] at h
        cases h
        right
        rw [hdata]
        have := flatMany_leaves extractF64 (PyData.list l0 :: l)
        rw [hv] at this
        exact key _ _ _ _ this.symm
  | .num x :: l, h =>
    dsimp only at h
    by_cases hi : isIntKind kind = true ∧ ∃ v, (PyData.num x :: l).mapM (extractItem extractI64) = some v
    · obtain ⟨hi, v, hv⟩ := hi
      rw [if_pos hi, hv] at h
      cases h
      exact Or.inl (key _ _ _ _ (mapM_extractItem _ _ hv))
    · have e : (if isIntKind kind = true then (PyData.num x :: l).mapM (extractItem extractI64) else none) = none := by
        split
        · next hh =>
          cases hv : (PyData.num x :: l).mapM (extractItem extractI64) with
          | none => rfl
          | some v => exact absurd ⟨hh, v, hv⟩ hi
        · rfl
      rw [e] at h
      dsimp only at h
      cases hv : (PyData.num x :: l).mapM (extractItem extractF64) with
      | none => rw [hv] at h; cases h
      | some v =>
        rw [hv] at h
        cases h
        exact Or.inr (key _ _ _ _ (mapM_extractItem _ _ hv))

example : (fromPyList none [.list [.num (.int 1)], .list [.num (.int 2), .num (.int 3)]]).map (fun r => r.2.data) =
    some [.int 1, .int 2, .int 3] := by
  decide +kernel

/-- C80.  The dtype is taken from the first number alone, so later floats are cut to integers, and
integers to truth values.  Lists that are not rectangular are accepted: with the shape of their
first rows when the number of elements happens to agree, without a shape otherwise.  A number is
refused.  The integers of a tuple become floats. -/
theorem C80_array_counterexample :
    (fromPyList none [.num (.int 1), .num (.float (5 / 2))]).map (fun r => (r.1, r.2.data)) = some (.int true 64, [.int 1, .int 2]) ∧
    numpyKind (PyData.leavesAll [.num (.int 1), .num (.float (5 / 2))]) = .float ∧
    (fromPyList none [.num (.bool true), .num (.int 7)]).map (fun r => (r.1, r.2.data)) = some (.bool, [.bool true, .bool true]) ∧
    numpyKind (PyData.leavesAll [.num (.bool true), .num (.int 7)]) = .int true 64 ∧
    (fromPyList none [.list [.num (.int 1), .num (.int 2)], .list [.num (.int 3), .num (.int 4), .num (.int 5)], .list [.num (.int 6)]]).map
      (fun r => (r.2.shape, r.2.data)) = some ([3, 2], [.int 1, .int 2, .int 3, .int 4, .int 5, .int 6]) ∧
    (fromPyList none [.list [.num (.int 1), .num (.int 2)], .list [.num (.int 3)]]).map (fun r => (r.2.shape, r.2.data)) =
      some ([3], [.int 1, .int 2, .int 3]) ∧
    arrayOfPy none (.num (.int 5)) = none ∧
    (fromPyList none [.num (.complex 1 2)]).isNone ∧
    (arrayOfIterable none [.num (.int 1), .num (.int (2 ^ 53 + 1))]).map (fun r => (r.1, r.2.data)) =
      some (.float, [.float 1, .float (2 ^ 53)]) := by
  refine ⟨?_, ?_, ?_, ?_, ?_, ?_, rfl, ?_, ?_⟩ <;> decide +kernel

/-- C80.  `tolist` of an array of any layout is the nested list of its shape, with the element of
each index in its place: integers of 64 bits with sign and floats as they are. -/
theorem C80_tolist_partial {h : Held PyNum} (hw : h.view.WF)
    (hr : ∀ idx, InShape h.view.shape idx → (∃ i, h.nd.get idx = .int i ∧ InIntRange true 64 i) ∨ ∃ x, h.nd.get idx = .float x) :
    toPyList h = .shaped h.nd.shape h.nd.get := by
  unfold toPyList
  rw [buildList_eq]
  refine shaped_congr _ fun idx hi => ?_
  show listLeaf (h.nd.get idx) = h.nd.get idx
  rcases hr idx hi with ⟨i, e, hi'⟩ | ⟨x, e⟩
  · rw [e, listLeaf, wrap64_id hi']
  · rw [e]; rfl

/-- C80.  `tolist` of an array with any elements has the shape of the array. -/
theorem C80_tolist_shape (h : Held PyNum) : ∃ g, toPyList h = .shaped h.nd.shape g :=
  ⟨_, by unfold toPyList; rw [buildList_eq]; rfl⟩

/-- C80.  `tolist` turns large unsigned integers into negative ones, truth values into floats and
complex numbers into zeros. -/
theorem C80_tolist_counterexample :
    (toPyList (Held.of ⟨[1], [.int (2 ^ 63)]⟩ 8 (.int 0))).leaves = [.int (-2 ^ 63)] ∧
    (toPyList (Held.of ⟨[1], [.bool true]⟩ 1 (.bool false))).leaves = [.float 1] ∧
    (toPyList (Held.of ⟨[1], [.complex 1 2]⟩ 16 (.complex 0 0))).leaves = [.float 0] := by
  refine ⟨?_, ?_, ?_⟩ <;> decide +kernel

/-- C80.  A list of integers, made an array and made a list again, is the same list. -/
theorem C80_list_array_list {s : List Nat} (hs : s ≠ []) (h0 : 0 ∉ s) (g : List Nat → Int) (hr : ∀ idx, InShape s idx → InIntRange true 64 (g idx)) :
    ∃ k r, arrayOfPy none (.shaped s fun idx => .int (g idx)) = some (k, r) ∧
      toPyList (Held.of r 8 (.int 0)) = .shaped s fun idx => .int (g idx) := by
  obtain ⟨r, h1, h2⟩ := C80_array_ints hs h0 g hr
  refine ⟨_, r, h1, ?_⟩
  have hsame := held_of_is h2 (item := 8) (by decide) (.int 0)
  have hsh : (Held.of r 8 (.int 0)).nd.shape = s := hsame.1
  rw [C80_tolist_partial (held_of_wf r 8 (.int 0)) (fun idx hi => Or.inl ⟨g idx, hsame.2 idx hi, hr idx (by rwa [← hsh])⟩)]
  rw [hsh]
  exact shaped_congr s fun idx hi => hsame.2 idx (by rw [hsh]; exact hi)

/-- C80.  A float array of any layout, made a list and made an array again, is the same array, unless
an axis before the last one is empty. -/
theorem C80_array_list_array {h : Held PyNum} (hw : h.view.WF) (hs : h.view.shape ≠ []) (hv : Visible h.view.shape) (v : List Nat → Rat)
    (hr : ∀ idx, InShape h.view.shape idx → h.nd.get idx = .float (v idx)) :
    ∃ r, arrayOfPy none (toPyList h) = some (.float, r) ∧ r.Is h.nd := by
  rw [C80_tolist_partial hw fun idx hi => Or.inr ⟨v idx, hr idx hi⟩]
  by_cases h0 : 0 ∈ h.view.shape
  · obtain ⟨r, h1, h2, h3⟩ := C80_array_empty hv h0 h.nd.get
    refine ⟨r, h1, h2, ?_⟩
    rw [h3]
    symm
    exact List.length_eq_zero_iff.mp (by rw [Nd.length_toList]; exact (size_eq_zero_iff.mpr h0))
  · obtain ⟨r, h1, h2⟩ := C80_array_floats hs h0 h.nd.get v
      ⟨_, hr _ (inShape_replicate_zero (Nat.pos_of_ne_zero fun e => h0 (size_eq_zero_iff.mp e)))⟩ (fun idx hi => Or.inl (hr idx hi))
    exact ⟨r, h1, h2.congr ⟨rfl, fun idx hi => (hr idx hi).symm⟩⟩

/-- C80.  An integer array of any layout, made a list and made an array again, is the same array. -/
theorem C80_int_array_list_array {h : Held PyNum} (hw : h.view.WF) (hs : h.view.shape ≠ []) (h0 : 0 ∉ h.view.shape) (g : List Nat → Int)
    (hr : ∀ idx, InShape h.view.shape idx → h.nd.get idx = .int (g idx) ∧ InIntRange true 64 (g idx)) :
    ∃ r, arrayOfPy none (toPyList h) = some (.int true 64, r) ∧ r.Is h.nd := by
  rw [C80_tolist_partial hw fun idx hi => Or.inl ⟨g idx, hr idx hi⟩]
  obtain ⟨r, h1, h2⟩ := C80_array_ints hs h0 g (fun idx hi => (hr idx hi).2)
  refine ⟨r, ?_, h2.congr ⟨rfl, fun idx hi => (hr idx hi).1.symm⟩⟩
  rw [← h1]
  congr 1
  exact shaped_congr _ fun idx hi => (hr idx hi).1

/-- C80.  An array with an empty axis before the last, or without axes, does not come back. -/
theorem C80_array_list_array_counterexample :
    (arrayOfPy none (toPyList (Held.of ⟨[0, 3], []⟩ 8 (.float 0)))).map (fun r => r.2.shape) = some [0] ∧
    (arrayOfPy none (toPyList (Held.of ⟨[], [.float 1]⟩ 8 (.float 0)))).isNone := by
  refine ⟨?_, ?_⟩ <;> decide +kernel

/-- C80.  `item` is an error exactly when the array does not have one element, and otherwise the
element: a float as it is, an integer exactly up to `2^53`. -/
theorem C80_item_partial {h : Held PyNum} (hw : h.view.WF) :
    (itemOf h = none ↔ size h.view.shape ≠ 1) ∧
    ∀ idx, size h.view.shape = 1 → InShape h.view.shape idx →
      (∀ x, h.nd.get idx = .float x → itemOf h = some x) ∧
      ∀ i : Int, h.nd.get idx = .int i → i.natAbs ≤ 2 ^ 53 → itemOf h = some (i : Rat) := by
  refine ⟨?_, fun idx h1 hi => ?_⟩
  · unfold itemOf
    split <;> simp_all
  · have h0 : 0 ∉ h.view.shape := fun hm => by
      have := size_eq_zero_iff.mpr hm
      omega
    have hz := inShape_replicate_zero (Nat.pos_of_ne_zero fun e => h0 (size_eq_zero_iff.mp e))
    have hone : ∀ a b, InShape h.view.shape a → InShape h.view.shape b → a = b := fun a b ha hb =>
      rank_inj ha hb (by
        have := rank_lt ha
        have := rank_lt hb
        omega)
    rw [hone idx _ hi hz]
    unfold itemOf
    rw [if_neg (by simpa using h1)]
    refine ⟨fun x hx => ?_, fun i hx hb => ?_⟩
    · have : h.mem (h.view.addr (List.replicate h.view.shape.length 0)) = .float x := hx
      rw [this]; rfl
    · have : h.mem (h.view.addr (List.replicate h.view.shape.length 0)) = .int i := hx
      rw [this, loadF64, intToF64_exact hb]

/-- C80.  `item` of an integer beyond `2^53` is another number, and of a complex number zero. -/
theorem C80_item_counterexample :
    itemOf (Held.of ⟨[1], [.int (2 ^ 53 + 1)]⟩ 8 (.int 0)) = some (2 ^ 53) ∧
    itemOf (Held.of ⟨[1, 1], [.complex 1 2]⟩ 16 (.complex 0 0)) = some 0 := by
  refine ⟨?_, ?_⟩ <;> decide +kernel

end Props
