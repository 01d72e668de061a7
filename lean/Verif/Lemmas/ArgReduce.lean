import Verif.Model.ArgReduce
import Verif.Spec.Reduce
import Verif.Lemmas.Reduce
/-!
# Lemmas: argmax and argmin
-/

namespace Rumpy
open Spec

/-- `v > best` through a key. -/
def gtKey [LT κ] [DecidableLT κ] (key : α → κ) (v best : α) : Bool := decide (key best < key v)
/-- `v < best` through a key. -/
def ltKey [LT κ] [DecidableLT κ] (key : α → κ) (v best : α) : Bool := decide (key v < key best)

section
variable [LinearOrder κ] (key : α → κ)

theorem argScan_range (d : Nat → α) (b : α) (h0 : key b ≤ key (d 0)) : ∀ n,
    let s := argScan (gtKey key) d (List.range (n + 1)) (b, 0)
    key s.1 = key (d s.2) ∧ s.2 < n + 1 ∧ (∀ i < n + 1, key (d i) ≤ key s.1) ∧ ∀ i < s.2, key (d i) < key s.1
  | 0 => by
    simp only [argScan, List.range_succ, List.range_zero, List.nil_append, List.foldl_cons, List.foldl_nil, gtKey]
    by_cases h : key b < key (d 0)
    · simp [h]
    · have : key b = key (d 0) := le_antisymm h0 (not_lt.1 h)
      simp [this]
  | n + 1 => by
    obtain ⟨h1, h2, h3, h4⟩ := argScan_range d b h0 n
    simp only [argScan] at *
    rw [List.range_succ, List.foldl_append]
    generalize (List.range (n + 1)).foldl (fun s j => if gtKey key (d j) s.1 = true then (d j, j) else s) (b, 0) = s at *
    simp only [List.foldl_cons, List.foldl_nil, gtKey, decide_eq_true_eq]
    by_cases h : key s.1 < key (d (n + 1))
    · rw [if_pos h]
      refine ⟨rfl, by simp, ?_, ?_⟩
      · intro i hi
        by_cases hi' : i = n + 1
        · subst hi'; exact le_refl _
        · exact (h3 i (by omega)).trans h.le
      · intro i hi
        exact lt_of_le_of_lt (h3 i hi) h
    · rw [if_neg h]
      refine ⟨h1, by omega, ?_, h4⟩
      intro i hi
      by_cases hi' : i = n + 1
      · subst hi'; exact not_lt.1 h
      · exact h3 i (by omega)

theorem firstMax_of {d : Nat → α} {n k : Nat} (hk : k < n) (h3 : ∀ i < n, key (d i) ≤ key (d k))
    (h4 : ∀ i < k, key (d i) < key (d k)) : FirstMax ((List.range n).map fun i => key (d i)) k := by
  refine ⟨by simpa using hk, ?_, ?_⟩
  · intro y hy
    obtain ⟨i, hi, rfl⟩ := List.mem_map.1 hy
    simpa using h3 i (List.mem_range.1 hi)
  · intro j hj
    simpa using h4 j hj

theorem argScan_firstMax (d : Nat → α) (b : α) (h0 : key b ≤ key (d 0)) {n : Nat} (hn : n ≠ 0) :
    FirstMax ((List.range n).map fun i => key (d i)) (argScan (gtKey key) d (List.range n) (b, 0)).2 := by
  obtain ⟨m, rfl⟩ := Nat.exists_eq_succ_of_ne_zero hn
  obtain ⟨h1, h2, h3, h4⟩ := argScan_range key d b h0 m
  exact firstMax_of key h2 (fun i hi => h1 ▸ h3 i hi) (fun i hi => h1 ▸ h4 i hi)

theorem argContiguous_firstMax (d : Nat → α) {n : Nat} (hn : n ≠ 0) :
    FirstMax ((List.range n).map fun i => key (d i)) (argContiguous (gtKey key) d n) := by
  have h := argScan_firstMax key d (d 0) le_rfl hn
  have e : argContiguous (gtKey key) d n = (argScan (gtKey key) d (List.range n) (d 0, 0)).2 := by
    unfold argContiguous
    rw [if_neg hn]
    obtain ⟨m, rfl⟩ := Nat.exists_eq_succ_of_ne_zero hn
    rw [List.range_eq_range', List.range'_succ]
    simp [argScan, gtKey]
  rw [e]; exact h

theorem argContiguous_congr (gt : α → α → Bool) {d d' : Nat → α} {n : Nat} (h : ∀ i < n, d i = d' i) :
    argContiguous gt d n = argContiguous gt d' n := by
  unfold argContiguous
  split
  · rfl
  · next hn =>
    unfold argScan
    rw [h 0 (by omega)]
    congr 1
    apply List.foldl_ext
    intro s j hj
    rw [List.mem_range'_1] at hj
    rw [h j (by omega)]

end

theorem firstMax_unique [LinearOrder κ] {l : List κ} {k k' : Nat} (h : FirstMax l k) (h' : FirstMax l k') : k = k' := by
  obtain ⟨hk, h1, h2⟩ := h
  obtain ⟨hk', h1', h2'⟩ := h'
  rcases lt_trichotomy k k' with hlt | he | hlt
  · have a := h2' k hlt
    have b := h1 l[k'] (List.getElem_mem _)
    exact absurd (lt_of_lt_of_le a b) (lt_irrefl _)
  · exact he
  · have a := h2 k' hlt
    have b := h1' l[k] (List.getElem_mem _)
    exact absurd (lt_of_lt_of_le a b) (lt_irrefl _)

theorem argStrided_eq (gt : α → α → Bool) (init : α) (mem : Int → α) {v : View} (d : Nat → α)
    (hd : ∀ i p, v.addrs[i]? = some p → mem p = d i) :
    argStrided gt init mem v = (argScan gt d (List.range v.addrs.length) (init, 0)).2 := by
  unfold argStrided argScan
  rw [zipIdx_eq_range' 0, List.foldl_map]
  congr 1
  apply List.foldl_ext
  intro s j hj
  have hj := List.mem_range.1 hj
  rw [← hd j (v.addrs.getD j 0) (by rw [List.getD_eq_getElem _ _ hj, List.getElem?_eq_getElem hj])]

/-- The value kept for each output position by the row-major loop. -/
theorem argRows_get (gt : α → α → Bool) (init : α) (d : Nat → α) {outer axisLen inner : Nat}
    {o k : Nat} (ho : o < outer) (hk : k < inner) :
    (argRows gt init d outer axisLen inner (outer * inner))[o * inner + k]? =
      some (argScan gt (fun j => d ((o * axisLen + j) * inner + k)) (List.range axisLen) (init, 0)) := by
  have key := accumulateRows_get (α := α × Nat)
    (fun s x => if gt x.1 s.1 then x else s) (init, 0)
    (fun i => (d i, i / inner % axisLen)) (axisLen := axisLen) ho hk
  have e : argRows gt init d outer axisLen inner (outer * inner) =
      accumulateRows (fun s x => if gt x.1 s.1 then x else s) (init, 0)
        (fun i => (d i, i / inner % axisLen)) outer axisLen inner (outer * inner) := by
    have hpos : ((List.range outer).flatMap fun o => (List.range axisLen).flatMap fun a =>
        (List.range inner).map fun k => (o * inner + k, a)) =
        (indices [outer, axisLen, inner]).map fun i => (i.getD 0 0 * inner + i.getD 2 0, i.getD 1 0) := by
      simp [indices, List.map_flatMap, List.flatMap_map, ← List.map_eq_flatMap, Function.comp_def]
    have hpos' : ((List.range outer).flatMap fun o => (List.range axisLen).flatMap fun _ =>
        (List.range inner).map fun k => o * inner + k) =
        (indices [outer, axisLen, inner]).map fun i => i.getD 0 0 * inner + i.getD 2 0 := by
      simp [indices, List.map_flatMap, List.flatMap_map, ← List.map_eq_flatMap, Function.comp_def]
    unfold argRows accumulateRows
    dsimp only
    rw [hpos, hpos', List.zipIdx_map, List.zipIdx_map, indices_zipIdx, List.map_map, List.map_map, List.foldl_map,
      List.foldl_map]
    apply List.foldl_ext
    intro out i hi
    have hi := mem_indices.1 hi
    rcases i with _ | ⟨x, _ | ⟨y, _ | ⟨z, _ | ⟨w, i⟩⟩⟩⟩ <;> simp only [InShape] at hi
    all_goals try (exact absurd hi (by tauto))
    obtain ⟨hx, hy, hz, -⟩ := hi
    have hr : rank [outer, axisLen, inner] [x, y, z] / inner % axisLen = y := by
      have : rank [outer, axisLen, inner] [x, y, z] = inner * (axisLen * x + y) + z := by
        simp [rank, size]; ring
      rw [this, Nat.mul_add_div (by omega), Nat.div_eq_of_lt hz, Nat.add_zero, Nat.mul_add_mod, Nat.mod_eq_of_lt hy]
    simp only [Function.comp_def, Prod.map, id, List.getD_cons_zero, List.getD_cons_succ, hr]
  rw [e, key]
  congr 1
  unfold argScan
  apply List.foldl_ext
  intro s j hj
  have hj := List.mem_range.1 hj
  have : ((o * axisLen + j) * inner + k) / inner % axisLen = j := by
    rw [Nat.mul_comm, Nat.mul_add_div (by omega), Nat.div_eq_of_lt hk, Nat.add_zero, Nat.mul_comm, Nat.mul_add_mod,
      Nat.mod_eq_of_lt hj]
  simp [this]

theorem argRows_length (gt : α → α → Bool) (init : α) (d : Nat → α) (o a k n : Nat) :
    (argRows gt init d o a k n).length = n := by
  unfold argRows
  dsimp only
  generalize List.zipIdx _ = l
  suffices h : ∀ (l : List ((Nat × Nat) × Nat)) (out : List (α × Nat)),
      (l.foldl (fun out pas => out.modify pas.1.1 fun s =>
        if gt (d pas.2) s.1 then (d pas.2, pas.1.2) else s) out).length = out.length by
    rw [h]; simp
  intro l
  induction l with
  | nil => simp
  | cons q l ih => intro out; simp [ih]

/-- The lane through `idx` along an axis. -/
def lane (mem : Int → α) (v : View) (axis : Nat) (idx : List Nat) (j : Nat) : α := mem (v.addr (idx.insertIdx axis j))

theorem shape_split {s : List Nat} {axis : Nat} (hax : axis < s.length) :
    s = s.take axis ++ (s.getD axis 0 :: s.drop (axis + 1)) := by
  conv_lhs => rw [← List.take_append_drop axis s]
  rw [List.drop_eq_getElem_cons hax, List.getD_eq_getElem _ _ hax]

/-- In a C-contiguous array a lane element sits at this position in memory order. -/
theorem cFlag_lane {v : View} (hw : v.WF) (hc : v.cFlag = true) {axis : Nat} (hax : axis < v.shape.length)
    {i t : List Nat} (hi : InShape (v.shape.take axis) i) (ht : InShape (v.shape.drop (axis + 1)) t) {j : Nat}
    (hj : j < v.shape.getD axis 0) :
    v.addr ((i ++ t).insertIdx axis j) = v.offset +
      (((rank (v.shape.take axis) i * v.shape.getD axis 0 + j) * size (v.shape.drop (axis + 1)) +
        rank (v.shape.drop (axis + 1)) t : Nat) : Int) * v.item := by
  have hta : (v.shape.take axis).length = axis := by rw [List.length_take]; omega
  have hil := hi.length_eq
  have hins : (i ++ t).insertIdx axis j = i ++ j :: t := by
    conv_lhs => rw [← hta, ← hil]
    exact insertIdx_append_self i t j
  have hin : InShape v.shape (i ++ j :: t) := by
    rw [shape_split hax, inShape_append_iff hil]
    exact ⟨hi, hj, ht⟩
  rw [hins, cFlag_addr hw hc hin]
  congr 2
  conv_lhs => rw [shape_split hax]
  rw [rank_append _ _ hil]
  simp only [rank, size]
  push_cast
  ring

theorem argRows_eq (gt : α → α → Bool) (init : α) (mem : Int → α) {v : View} (hw : v.WF)
    (hc : v.cFlag = true) {axis : Nat} (hax : axis < v.shape.length) (hpos : size (v.shape.eraseIdx axis) ≠ 0) :
    argRows gt init (fun i => mem (v.offset + i * v.item)) (max (size (v.shape.take axis)) 1)
      (v.shape.getD axis 0) (max (size (v.shape.drop (axis + 1))) 1) (size (v.shape.eraseIdx axis)) =
      (indices (v.shape.eraseIdx axis)).map fun idx =>
        argScan gt (lane mem v axis idx) (List.range (v.shape.getD axis 0)) (init, 0) := by
  have her : v.shape.eraseIdx axis = v.shape.take axis ++ v.shape.drop (axis + 1) := List.eraseIdx_eq_take_drop_succ ..
  have hsz : size (v.shape.eraseIdx axis) = size (v.shape.take axis) * size (v.shape.drop (axis + 1)) := by
    rw [her, size_append]
  have h1 : 0 < size (v.shape.take axis) := by
    rcases Nat.eq_zero_or_pos (size (v.shape.take axis)) with h | h
    · rw [hsz, h] at hpos; simp at hpos
    · exact h
  have h2 : 0 < size (v.shape.drop (axis + 1)) := by
    rcases Nat.eq_zero_or_pos (size (v.shape.drop (axis + 1))) with h | h
    · rw [hsz, h] at hpos; simp at hpos
    · exact h
  rw [max_eq_left (by omega), max_eq_left (by omega)]
  apply eq_toList (nd := ⟨v.shape.eraseIdx axis, fun idx =>
    argScan gt (lane mem v axis idx) (List.range (v.shape.getD axis 0)) (init, 0)⟩)
  · rw [argRows_length]
  · intro idx hi
    dsimp only at hi ⊢
    rw [her] at hi
    have hl := hi.length_eq
    obtain ⟨i, t, rfl, hil⟩ : ∃ i t, idx = i ++ t ∧ i.length = (v.shape.take axis).length :=
      ⟨idx.take (v.shape.take axis).length, idx.drop (v.shape.take axis).length, (List.take_append_drop _ _).symm, by
        rw [List.length_take, hl, List.length_append]; omega⟩
    obtain ⟨hiA, htB⟩ := (inShape_append_iff hil).1 hi
    rw [her, rank_append _ _ hil, size_append, argRows_get gt init _ (rank_lt hiA) (rank_lt htB)]
    congr 1
    unfold argScan
    apply List.foldl_ext
    intro s j hj
    unfold lane
    rw [cFlag_lane hw hc hax hiA htB (List.mem_range.1 hj)]


/-- What `argAxis` returns when it returns: the first largest position of every lane. -/
theorem argAxis_spec [LinearOrder κ] (key : α → κ) (init : α) (hinit : ∀ a, key init ≤ key a) (mem : Int → α)
    {v : View} (hw : v.WF) {axis : Nat} (hax : axis < v.shape.length) (hn : v.shape.getD axis 0 ≠ 0)
    {r : Arr Nat} (hr : argAxis (gtKey key) init mem v axis = .ok r) :
    r.shape = (if (v.shape.eraseIdx axis).isEmpty then [1] else v.shape.eraseIdx axis) ∧
    ∃ f : List Nat → Nat, r.data = (indices (v.shape.eraseIdx axis)).map f ∧
      ∀ idx, InShape (v.shape.eraseIdx axis) idx →
        FirstMax ((List.range (v.shape.getD axis 0)).map fun j => key (lane mem v axis idx j)) (f idx) := by
  unfold argAxis at hr
  dsimp only at hr
  rw [sizeOf_eq, outShape_size] at hr
  by_cases h0 : size (v.shape.eraseIdx axis) = 0 ∨ v.shape.getD axis 0 = 0
  · rw [if_pos h0, Outcome.ok.injEq] at hr
    subst hr
    have h0 : size (v.shape.eraseIdx axis) = 0 := by tauto
    refine ⟨rfl, fun _ => 0, ?_, ?_⟩
    · have : indices (v.shape.eraseIdx axis) = [] := List.eq_nil_of_length_eq_zero (by rw [length_indices, h0])
      simp [h0, this]
    · intro idx hi
      have := rank_lt hi
      omega
  · rw [if_neg h0] at hr
    push Not at h0
    by_cases h1 : v.strides.getD axis 0 = v.item
    · rw [if_pos h1] at hr
      by_cases h2 : v.cFlag = true ∧ v.shape.length = 2 ∧ axis = 1
      · rw [if_pos h2, Outcome.ok.injEq] at hr
        subst hr
        obtain ⟨hc, hl, rfl⟩ := h2
        refine ⟨rfl, fun idx => argContiguous (gtKey key) (lane mem v 1 idx) (v.shape.getD 1 0), ?_,
          fun idx _ => argContiguous_firstMax key _ hn⟩
        obtain ⟨a, b, hs⟩ : ∃ a b, v.shape = [a, b] := by
          rcases hv : v.shape with _ | ⟨a, _ | ⟨b, _ | ⟨c, s⟩⟩⟩ <;> simp [hv] at hl
          exact ⟨a, b, rfl⟩
        have key2 : ∀ row j, j < b → row < a → v.addr ([row].insertIdx 1 j) =
            v.offset + ((row * b + j : Nat) : Int) * v.item := by
          intro row j hj hrow
          have := cFlag_lane hw hc hax (i := [row]) (t := []) (j := j) (by simp [hs, InShape, hrow])
            (by simp [hs, InShape]) (by simpa [hs] using hj)
          simpa [hs, rank, size] using this
        simp only [hs, List.getD_cons_zero, List.getD_cons_succ, List.eraseIdx, size, Nat.mul_one]
        have hind : indices [a] = (List.range a).map fun r => [r] := by
          simp [indices, ← List.map_eq_flatMap]
        have hz : ((List.range a).map fun row => (row, argContiguous (gtKey key)
            (fun j => mem (v.offset + ((row * b + j : Nat) : Int) * v.item)) b)) =
            (List.range a).zipIdx.map fun x => (x.2, argContiguous (gtKey key)
              (fun j => mem (v.offset + ((x.1 * b + j : Nat) : Int) * v.item)) b) := by
          rw [zipIdx_eq_range, List.length_range, List.map_map]
          apply List.map_congr_left
          intro row hrow
          have hrow := List.mem_range.1 hrow
          simp only [Function.comp_def]
          rw [List.getD_eq_getElem _ _ (by simpa using hrow), List.getElem_range]
        have hz' := writes_zipIdx (fun row : Nat => argContiguous (gtKey key)
            (fun j => mem (v.offset + ((row * b + j : Nat) : Int) * v.item)) b) (List.range a)
            (List.replicate a 0) (by simp)
        rw [hz]
        refine hz'.trans ?_
        rw [hind, List.map_map]
        apply List.map_congr_left
        intro row hrow
        apply argContiguous_congr
        intro j hj
        unfold lane
        rw [key2 row j hj (List.mem_range.1 hrow)]
      · rw [if_neg h2, Outcome.ok.injEq] at hr
        subst hr
        refine ⟨rfl, fun idx => argContiguous (gtKey key) (lane mem v axis idx) (v.shape.getD axis 0), ?_,
          fun idx _ => argContiguous_firstMax key _ hn⟩
        rw [lanes_eq (fun b => argContiguous (gtKey key) (fun j => mem (v.offset + b + j * v.item)) (v.shape.getD axis 0))
          hw _ (by simp)]
        apply List.map_congr_left
        intro idx hi
        apply argContiguous_congr
        intro j _
        unfold lane
        rw [lane_addr hw hax (mem_indices.1 hi), h1, Int.mul_comm]
    · rw [if_neg h1] at hr
      by_cases hc : v.cFlag = true
      · rw [if_pos hc, Outcome.ok.injEq] at hr
        subst hr
        refine ⟨rfl, fun idx => (argScan (gtKey key) (lane mem v axis idx) (List.range (v.shape.getD axis 0)) (init, 0)).2,
          ?_, fun idx _ => argScan_firstMax key _ _ (hinit _) hn⟩
        rw [sizeOf_eq, sizeOf_eq, argRows_eq (gtKey key) init mem hw hc hax h0.1, List.map_map]
        rfl
      · rw [if_neg hc] at hr
        by_cases h4 : 1 < v.shape.getD axis 0
        · rw [if_pos h4] at hr; simp at hr
        · rw [if_neg h4, Outcome.ok.injEq] at hr
          subst hr
          refine ⟨rfl, fun _ => 0, ?_, ?_⟩
          · exact lanes_eq (fun _ => 0) hw _ (by simp)
          · intro idx _
            have h5 : v.shape.getD axis 0 = 1 := by omega
            rw [h5]
            exact firstMax_of key (d := lane mem v axis idx) (n := 1) (k := 0) (by omega)
              (fun i hi => by have : i = 0 := by omega
                              subst this; exact le_rfl) (fun i hi => by omega)

theorem argSlowIndex_eq {ndim axis : Nat} (hax : axis < ndim) {outer : List Nat} {j : Nat}
    (h : outer.length = ndim - 1) : argSlowIndex ndim axis outer j = outer.insertIdx axis j := by
  unfold argSlowIndex
  rw [Nat.min_eq_left (by omega)]
  by_cases h1 : axis < ndim - 1
  · rw [if_pos ⟨h1, by omega⟩]
    have : (outer.take axis).length = axis := by rw [List.length_take]; omega
    have e := insertIdx_append_self (outer.take axis) (outer.drop axis) j
    rw [this, List.take_append_drop] at e
    rw [e]; simp
  · rw [if_neg (by tauto)]
    have : axis = outer.length := by omega
    subst this
    have := insertIdx_append_self outer [] j
    simp at this
    simp [this]

theorem argAxisSlow_eq (gt : α → α → Bool) (mem : Int → α) {v : View} (hw : v.WF) {axis : Nat}
    (hax : axis < v.shape.length) (hn : v.shape.getD axis 0 ≠ 0) :
    (argAxisSlow gt mem v axis).data = (indices (v.shape.eraseIdx axis)).map fun idx =>
      argContiguous gt (lane mem v axis idx) (v.shape.getD axis 0) := by
  unfold argAxisSlow
  dsimp only
  rw [sizeOf_eq]
  by_cases h0 : size (if (v.shape.eraseIdx axis).isEmpty then [1] else v.shape.eraseIdx axis) = 0 ∨ v.shape.getD axis 0 = 0
  · rw [if_pos h0]
    rw [outShape_size] at h0 ⊢
    have h0 : size (v.shape.eraseIdx axis) = 0 := by tauto
    have : indices (v.shape.eraseIdx axis) = [] := List.eq_nil_of_length_eq_zero (by rw [length_indices, h0])
    simp [h0, this]
  · rw [if_neg h0]
    dsimp only
    rw [writes_odometer _ (fun i : List Nat => argContiguous gt
      (fun j => mem (v.addr (argSlowIndex v.shape.length axis i j))) (v.shape.getD axis 0)) _ (by simp)]
    by_cases he : (v.shape.eraseIdx axis).isEmpty
    · have hl : v.shape.length = 1 := by
        have := congrArg List.length (List.isEmpty_iff.1 he)
        rw [List.length_eraseIdx, if_pos hax] at this
        simp at this; omega
      have hax0 : axis = 0 := by omega
      subst hax0
      rw [if_pos he, List.isEmpty_iff.1 he]
      simp only [indices, List.range_succ, List.range_zero, List.nil_append, List.flatMap_cons, List.flatMap_nil,
        List.append_nil, List.map_cons, List.map_nil]
      congr 1
      apply argContiguous_congr
      intro j _
      simp [lane, argSlowIndex, hl]
    · rw [if_neg he]
      apply List.map_congr_left
      intro idx hi
      have hl := (mem_indices.1 hi).length_eq
      rw [List.length_eraseIdx, if_pos hax] at hl
      apply argContiguous_congr
      intro j _
      unfold lane
      rw [argSlowIndex_eq hax hl]

end Rumpy
