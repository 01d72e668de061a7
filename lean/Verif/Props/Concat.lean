import Verif.Lemmas.Concat
import Verif.Props.Views
/-!
# C11, C12: joining and splitting arrays
-/

namespace Props
open Spec Rumpy

/-- `k`-th array starts at this position of the joined axis. -/
def joinOffset (axis : Nat) (arrs : List (Nd α)) (k : Nat) : Nat :=
  ((arrs.take k).map fun a => a.shape.getD axis 0).sum

/-- `concatenate` is defined: at least one array, the axis exists, and the shapes agree away
from the axis. -/
def Joinable (axis : Nat) (arrs : List (Nd α)) : Prop :=
  ∃ first rest, arrs = first :: rest ∧ axis < first.shape.length ∧
    ∀ a ∈ rest, a.shape.length = first.shape.length ∧
      ∀ i, i < first.shape.length → i ≠ axis → a.shape.getD i 0 = first.shape.getD i 0

theorem compatible_spec {axis : Nat} {s t : List Nat} :
    concatCompatible axis s t = true ↔
      t.length = s.length ∧ ∀ i, i < s.length → i ≠ axis → t.getD i 0 = s.getD i 0 := by
  unfold concatCompatible
  simp only [Bool.and_eq_true, beq_iff_eq, List.all_eq_true, List.mem_range, Bool.or_eq_true]
  constructor
  · rintro ⟨h1, h2⟩
    refine ⟨h1, fun i hi hne => ?_⟩
    rcases h2 i hi with h | h
    · exact absurd h hne
    · exact h.symm
  · rintro ⟨h1, h2⟩
    refine ⟨h1, fun i hi => ?_⟩
    by_cases he : i = axis
    · exact Or.inl he
    · exact Or.inr (h2 i hi he).symm

/-- C11: `concatenate` succeeds exactly when the arrays can be joined. -/
theorem C11_concatenate_succeeds_iff (zero : α) (arrs : List (Nd α)) (axis : Nat) :
    (concatenate zero arrs axis).isSome ↔ Joinable axis arrs := by
  cases arrs with
  | nil => simp [concatenate, Joinable]
  | cons first rest =>
    have hb : (rest.all fun a => concatCompatible axis first.shape a.shape) = true ↔
        ∀ a ∈ rest, a.shape.length = first.shape.length ∧
          ∀ i, i < first.shape.length → i ≠ axis → a.shape.getD i 0 = first.shape.getD i 0 := by
      simp only [List.all_eq_true, compatible_spec]
    unfold concatenate Joinable
    dsimp only
    constructor
    · intro h
      split at h
      · simp at h
      · split at h
        · simp at h
        · rename_i h1 h2
          exact ⟨first, rest, rfl, by omega, hb.1 (by simpa using h2)⟩
    · rintro ⟨f, r, he, h1, h2⟩
      obtain ⟨rfl, rfl⟩ := List.cons.inj he
      rw [if_neg (by omega), if_neg (by simpa using hb.2 h2)]
      split <;> rfl

/-- C11: the result of `concatenate` has the lengths of the joined axis added up, holds the
elements of each array, in order, at the positions shifted by the lengths before it, and
holds nothing else. -/
theorem C11_concatenate (zero : α) (arrs : List (Nd α)) (axis : Nat) (r : Arr α)
    (h : concatenate zero arrs axis = some r) :
    (∀ first, arrs[0]? = some first →
      r.shape = first.shape.set axis (arrs.map fun a => a.shape.getD axis 0).sum) ∧
    r.data.length = size r.shape ∧
    (∀ k a, arrs[k]? = some a → ∀ idx, InShape a.shape idx →
      InShape r.shape (idx.modify axis (· + joinOffset axis arrs k)) ∧
      r.at? (idx.modify axis (· + joinOffset axis arrs k)) = some (a.get idx)) ∧
    (∀ j, InShape r.shape j → ∃ k a idx, arrs[k]? = some a ∧ InShape a.shape idx ∧
      j = idx.modify axis (· + joinOffset axis arrs k)) := by
  cases arrs with
  | nil => simp [concatenate] at h
  | cons first rest =>
    unfold concatenate at h
    dsimp only at h
    split at h
    · simp at h
    rename_i hax
    split at h
    · simp at h
    rename_i hcomp
    have hax' : axis < first.shape.length := by omega
    have hshape : ∀ a ∈ first :: rest, a.shape = first.shape.set axis (a.shape.getD axis 0) := by
      intro a ha
      rcases List.mem_cons.1 ha with rfl | ha
      · exact (set_getD_self hax').symm
      · have := List.all_eq_true.1 (by simpa using hcomp) a ha
        exact (compatible_iff hax').1 this
    set tot := axisTotal axis (first :: rest) with htot
    set out := first.shape.set axis tot with hout
    obtain ⟨hnd, hT⟩ := concatTargets_spec hax' (first :: rest) 0 tot hshape (by omega)
    have hpos := concatWrites_targets hax' tot (first :: rest) 0 hshape
    have hnodup : ((concatWrites axis out (first :: rest) 0).map (·.1)).Nodup := by
      rw [hpos]
      apply (List.nodup_map_iff_inj_on hnd).2
      intro x hx y hy hxy
      exact rank_inj (hT x hx).1 (hT y hy).1 hxy
    have hr : r.shape = out ∧ r.data = writes (concatWrites axis out (first :: rest) 0)
        (List.replicate (Rumpy.sizeOf out) zero) := by
      split at h
      · rename_i h0
        simp only [Option.some.injEq] at h
        subst h
        refine ⟨rfl, ?_⟩
        rw [h0]
        have : (writes (concatWrites axis out (first :: rest) 0) (List.replicate 0 zero)).length = 0 := by simp
        exact (List.eq_nil_of_length_eq_zero this).symm
      · simp only [Option.some.injEq] at h
        subst h
        exact ⟨rfl, rfl⟩
    have hin : ∀ k a, (first :: rest)[k]? = some a → ∀ idx, InShape a.shape idx →
        InShape out (idx.modify axis (· + joinOffset axis (first :: rest) k)) := by
      intro k a hk idx hi
      have hm : a ∈ first :: rest := List.mem_of_getElem? hk
      rw [hshape a hm] at hi
      refine (inShape_shift hax' hi ?_).1
      have e : (first :: rest) = (first :: rest).take k ++ a :: (first :: rest).drop (k + 1) := by
        obtain ⟨hlt, hget⟩ := List.getElem?_eq_some_iff.1 hk
        rw [← hget, List.getElem_cons_drop, List.take_append_drop]
      have : tot = joinOffset axis (first :: rest) k + (a.shape.getD axis 0 +
          axisTotal axis ((first :: rest).drop (k + 1))) := by
        rw [htot]
        conv_lhs => rw [e]
        simp [axisTotal, joinOffset]
      omega
    refine ⟨?_, ?_, ?_, ?_⟩
    · intro f hf
      simp only [List.getElem?_cons_zero, Option.some.injEq] at hf
      subst hf
      rw [hr.1, hout, htot]; rfl
    · rw [hr.1, hr.2]; simp [sizeOf_eq]
    · intro k a hk idx hi
      refine ⟨by rw [hr.1]; exact hin k a hk idx hi, ?_⟩
      unfold Arr.at?
      rw [hr.1, hr.2]
      apply writes_get hnodup
      · have := concatWrites_mem hax' tot (first :: rest) 0 k a hshape hk idx hi
        rw [Nat.zero_add] at this
        exact this
      · rw [List.length_replicate, sizeOf_eq]
        exact rank_lt (hin k a hk idx hi)
    · intro j hj
      rw [hr.1] at hj
      have hj' := (inShape_set hax').1 hj
      obtain ⟨k, a, hk, h1, h2⟩ := exists_segment (axis := axis) (first :: rest) (j.getD axis 0) hj'.2.1
      refine ⟨k, a, j.modify axis (· - joinOffset axis (first :: rest) k), hk, ?_, ?_⟩
      · have hm : a ∈ first :: rest := List.mem_of_getElem? hk
        rw [hshape a hm]
        rw [inShape_set hax']
        refine ⟨by simpa using hj'.1, ?_, fun i hi hne => ?_⟩
        · rw [getD_modify_self (by omega)]
          show j.getD axis 0 - axisTotal axis ((first :: rest).take k) < _
          omega
        · rw [getD_modify_ne (Ne.symm hne)]; exact hj'.2.2 i hi hne
      · apply List.ext_getElem
        · simp
        · intro i g1 g2
          simp only [List.getElem_modify]
          split
          · rename_i he
            subst he
            have : j.getD axis 0 = j[axis] := List.getD_eq_getElem _ _ g1
            have h1' : joinOffset axis (first :: rest) k ≤ j[axis] := by rw [← this]; exact h1
            omega
          · rfl

/-- The hypothesis is met: joining a 1x2 and a 2x2 array along axis 0. -/
example : concatenate 0 [⟨[1, 2], fun idx => idx.getD 1 0⟩, ⟨[2, 2], fun idx => 10 + idx.sum⟩] 0
    = some ⟨[3, 2], [0, 1, 10, 11, 11, 12]⟩ := by decide

/-- C11: `stack` succeeds exactly when the arrays have one shape and the new axis is within
`0 … ndim`. -/
theorem C11_stack_succeeds_iff (zero : α) (arrs : List (Nd α)) (axis : Nat) :
    (stack zero arrs axis).isSome ↔
      ∃ first rest, arrs = first :: rest ∧ axis ≤ first.shape.length ∧ ∀ a ∈ rest, a.shape = first.shape := by
  cases arrs with
  | nil => simp [stack]
  | cons first rest =>
    unfold stack
    dsimp only
    by_cases hax : axis > first.shape.length
    · rw [if_pos hax]
      simp only [Option.isSome_none, Bool.false_eq_true, false_iff]
      rintro ⟨f, r, he, h1, _⟩
      obtain ⟨rfl, rfl⟩ := List.cons.inj he
      omega
    · rw [if_neg hax]
      by_cases hall : (rest.all fun a => a.shape == first.shape) = true
      · rw [hall]
        simp only [Bool.not_true, Bool.false_eq_true, if_false]
        have hs : ∀ a ∈ rest, a.shape = first.shape := by simpa [List.all_eq_true] using hall
        rw [C11_concatenate_succeeds_iff]
        refine ⟨fun _ => ⟨first, rest, rfl, by omega, hs⟩, fun _ => ?_⟩
        refine ⟨_, _, rfl, ?_, ?_⟩
        · simp only [Nd.expandDims]
          rw [List.length_insertIdx_of_le_length (by omega)]
          omega
        · intro a ha
          obtain ⟨b, hb, rfl⟩ := List.mem_map.1 ha
          simp [Nd.expandDims, hs b hb]
      · have : (rest.all fun a => a.shape == first.shape) = false := by simpa using hall
        rw [this]
        simp only [Bool.not_false, if_true, Option.isSome_none, Bool.false_eq_true, false_iff]
        rintro ⟨f, r, he, _, h2⟩
        obtain ⟨rfl, rfl⟩ := List.cons.inj he
        apply hall
        simpa [List.all_eq_true] using h2

/-- C11: `stack` puts array `k` at position `k` of the new axis. -/
theorem C11_stack (zero : α) (arrs : List (Nd α)) (axis : Nat) (r : Arr α)
    (h : stack zero arrs axis = some r) :
    (∀ first, arrs[0]? = some first → r.shape = first.shape.insertIdx axis arrs.length ∧
      ∀ a ∈ arrs, a.shape = first.shape) ∧
    (∀ k a, arrs[k]? = some a → ∀ idx, InShape a.shape idx →
      r.at? (idx.insertIdx axis k) = some (a.get idx)) := by
  cases arrs with
  | nil => simp [stack] at h
  | cons first rest =>
    unfold stack at h
    dsimp only at h
    split at h
    · simp at h
    rename_i hax
    split at h
    · simp at h
    rename_i hall
    have hle : axis ≤ first.shape.length := by omega
    have hsame : ∀ a ∈ first :: rest, a.shape = first.shape := by
      intro a ha
      rcases List.mem_cons.1 ha with rfl | ha
      · rfl
      · have hall' : (rest.all fun a => a.shape == first.shape) = true := by
          cases hb : rest.all fun a => a.shape == first.shape
          · simp [hb] at hall
          · rfl
        have := List.all_eq_true.1 hall' a ha
        simpa using this
    have hone : ∀ s : List Nat, axis ≤ s.length → (s.insertIdx axis 1).getD axis 0 = 1 := by
      intro s hs
      simp [List.getD, List.getElem?_insertIdx_self, hs]
    have hlens : ∀ l : List (Nd α), (∀ a ∈ l, a.shape = first.shape) →
        ((l.map fun a => a.expandDims axis).map fun a => a.shape.getD axis 0).sum = l.length := by
      intro l hl
      induction l with
      | nil => rfl
      | cons a l ih =>
        simp only [List.map_cons, List.sum_cons, List.length_cons]
        rw [ih (fun x hx => hl x (by simp [hx]))]
        simp only [Nd.expandDims]
        rw [hl a (by simp), hone _ hle]; omega
    obtain ⟨h1, h2, h3, h4⟩ := C11_concatenate zero _ axis r h
    constructor
    · intro f hf
      simp only [List.getElem?_cons_zero, Option.some.injEq] at hf
      subst hf
      refine ⟨?_, hsame⟩
      rw [h1 (first.expandDims axis) (by simp), hlens _ hsame]
      simp only [Nd.expandDims]
      apply List.ext_getElem?
      intro i
      rw [List.getElem?_set]
      by_cases he : axis = i
      · subst he
        rw [if_pos rfl, if_pos (by rw [List.length_insertIdx_of_le_length hle]; omega),
          List.getElem?_insertIdx_self, if_pos (by omega)]
      · rw [if_neg he]
        rw [List.getElem?_insertIdx, List.getElem?_insertIdx]
        simp only [Ne.symm he, if_false]
    · intro k a hk idx hi
      have hm : a ∈ first :: rest := List.mem_of_getElem? hk
      have hil : axis ≤ idx.length := by rw [hi.length_eq, hsame a hm]; exact hle
      have hjo : joinOffset axis ((first :: rest).map fun a => a.expandDims axis) k = k := by
        unfold joinOffset
        rw [← List.map_take, hlens _ (fun x hx => hsame x (List.mem_of_mem_take hx)), List.length_take]
        have := (List.getElem?_eq_some_iff.1 hk).1
        omega
      have := (h3 k (a.expandDims axis) (by simp only [List.getElem?_map, hk, Option.map_some])
        (idx.insertIdx axis 0) (by
          simp only [Nd.expandDims]
          apply inShape_insert_zero
          · rw [List.getElem?_insertIdx_self, if_pos (by rw [hsame a hm]; exact hle)]
          · rw [List.eraseIdx_insertIdx_self]; exact hi)).2
      rw [hjo] at this
      have e : (idx.insertIdx axis 0).modify axis (· + k) = idx.insertIdx axis k := by
        apply List.ext_getElem?
        intro i
        rw [List.getElem?_modify, List.getElem?_insertIdx, List.getElem?_insertIdx]
        by_cases h1 : i < axis
        · simp [h1, Nat.ne_of_gt h1]
        · by_cases h2 : i = axis
          · subst h2; simp [hil]
          · simp [h1, h2, Ne.symm h2]
      rw [e] at this
      rw [this]
      simp only [Nd.expandDims, List.eraseIdx_insertIdx_self]

example : stack 0 [⟨[2], fun idx => idx.getD 0 0⟩, ⟨[2], fun idx => 10 + idx.getD 0 0⟩] 1
    = some ⟨[2, 2], [0, 10, 1, 11]⟩ := by decide

/-- Section sizes of `array_split` add up to the whole length, are within one of each other
and never increase. -/
theorem C11_array_split_sizes (len sections : Nat) (h : 0 < sections) :
    (arraySplitSizes len sections).sum = len ∧ (arraySplitSizes len sections).length = sections ∧
    ∀ k, k < sections → (arraySplitSizes len sections).getD k 0 =
      len / sections + if k < len % sections then 1 else 0 := by
  refine ⟨?_, by simp [arraySplitSizes], fun k hk => ?_⟩
  · have key : ∀ n m q : Nat, ((List.range n).map fun i => if i < m then q + 1 else q).sum = n * q + min n m := by
      intro n m q
      induction n with
      | zero => simp
      | succ n ih =>
        rw [List.range_succ, List.map_append, List.sum_append, ih]
        simp only [List.map_cons, List.map_nil, List.sum_cons, List.sum_nil]
        rw [Nat.succ_mul]
        split <;> omega
    unfold arraySplitSizes
    rw [key]
    have h1 := Nat.mod_lt len h
    have h2 := Nat.div_add_mod len sections
    rw [Nat.min_eq_right (by omega)]
    exact h2
  · simp only [arraySplitSizes, List.getD, List.getElem?_map, List.getElem?_range hk, Option.map_some,
      Option.getD_some]
    split <;> omega

/-- C11, proved part: splitting into sizes that add up to the axis gives, for each section,
the elements of the array at the positions after all earlier sections.  The axis must not be
reversed (see `C04_slice_reversed_counterexample`). -/
theorem C11_split_sections_partial (mem : Int → α) (v : View) (hw : v.WF) (axis len : Nat) (st : Int)
    (hlen : v.shape[axis]? = some len) (hst : v.strides[axis]? = some st) (hpos : 0 ≤ st)
    (sizes : List Nat) : ∀ (start : Nat), start + sizes.sum ≤ len →
    ∃ ws : List View, splitIntoSizes v axis sizes start = some ws ∧ ws.length = sizes.length ∧
      ∀ (k : Nat) (w : View), ws[k]? = some w → w.WF ∧
        (w.denote mem).Same ((v.denote mem).slice axis ((start + (sizes.take k).sum : Nat) : Int) 1 (sizes.getD k 0)) := by
  induction sizes with
  | nil => intro start _; exact ⟨[], rfl, rfl, fun k w h => by simp at h⟩
  | cons n ns ih =>
    intro start hs
    simp only [List.sum_cons] at hs
    have hsl : View.sliceLen (start : Int) ((start : Int) + n) 1 = n := by
      refine (sliceLen_spec (by decide)).unique fun j => ?_
      simp only [gt_iff_lt, Int.zero_lt_one, if_true]
      omega
    obtain ⟨w, h1, _, _, _, h4, h5, _⟩ := sliceAxis_denote mem (v := v) (axis := axis) (start := start)
      (stop := (start : Int) + n) (step := 1) (by decide) hlen hst (Or.inl hpos) (fun k _ => by omega)
    obtain ⟨ws, g1, g2, g3⟩ := ih (start + n) (by omega)
    refine ⟨w :: ws, ?_, by simp [g2], ?_⟩
    · simp only [splitIntoSizes, h1, Option.bind_eq_bind, Option.bind_some]
      rw [show ((start : Int) + n) = ((start + n : Nat) : Int) by push_cast; rfl, g1]
      rfl
    · intro k u hk
      cases k with
      | zero =>
        simp only [List.getElem?_cons_zero, Option.some.injEq] at hk
        subst hk
        refine ⟨h4 hw.len, ?_⟩
        rw [hsl] at h5
        simpa using h5
      | succ k =>
        obtain ⟨q1, q2⟩ := g3 k u (by simpa using hk)
        refine ⟨q1, ?_⟩
        simpa [Nat.add_assoc] using q2

/-- C11: `split` is defined exactly when the axis exists and the number of sections divides
its length. -/
theorem C11_split_succeeds_iff (v : View) (hw : v.WF) (sections axis : Nat) :
    (split v sections axis).isSome ↔ ∃ len, v.shape[axis]? = some len ∧ 0 < sections ∧ sections ∣ len := by
  have hsucc : ∀ (sizes : List Nat) (start : Int), axis < v.shape.length →
      (splitIntoSizes v axis sizes start).isSome := by
    intro sizes
    induction sizes with
    | nil => intro _ _; rfl
    | cons n ns ih =>
      intro start hax
      have hax2 : axis < v.strides.length := by rw [hw.len]; exact hax
      simp only [splitIntoSizes, View.sliceAxis, List.getElem?_eq_getElem hax, List.getElem?_eq_getElem hax2]
      rw [if_neg (by simp)]
      simp only [Option.bind_eq_bind, Option.bind_some]
      obtain ⟨r, hr⟩ := Option.isSome_iff_exists.1 (ih (start + n) hax)
      rw [hr]; rfl
  unfold split
  cases hl : v.shape[axis]? with
  | none => simp
  | some len =>
    have hax := (List.getElem?_eq_some_iff.1 hl).1
    dsimp only
    constructor
    · intro h
      split at h
      · simp at h
      · split at h
        · simp at h
        · exact ⟨len, rfl, by omega, Nat.dvd_of_mod_eq_zero (by omega)⟩
    · rintro ⟨l, h1, h2, h3⟩
      simp only [Option.some.injEq] at h1
      subst h1
      rw [if_neg (by omega), if_neg (by simp [Nat.mod_eq_zero_of_dvd h3])]
      exact hsucc _ _ hax

/-- C11, proved part: joining the sections of a split gives the array back (axis not
reversed). -/
theorem C11_split_concatenate_partial (mem : Int → α) (zero : α) (v : View) (hw : v.WF) (axis len : Nat) (st : Int)
    (hlen : v.shape[axis]? = some len) (hst : v.strides[axis]? = some st) (hpos : 0 ≤ st)
    (sizes : List Nat) (hsum : sizes.sum = len) (ws : List View)
    (h : splitIntoSizes v axis sizes 0 = some ws) (r : Arr α)
    (hr : concatenate zero (ws.map (·.denote mem)) axis = some r) : r.Is (v.denote mem) := by
  obtain ⟨ws', h1, h2, h3⟩ := C11_split_sections_partial mem v hw axis len st hlen hst hpos sizes 0 (by omega)
  simp only [Nat.cast_zero] at h1
  rw [h, Option.some.injEq] at h1
  subst h1
  obtain ⟨c1, c2, c3, c4⟩ := C11_concatenate zero _ axis r hr
  have hax : axis < v.shape.length := (List.getElem?_eq_some_iff.1 hlen).1
  have hshape : ∀ k w, ws[k]? = some w → w.shape = v.shape.set axis (sizes.getD k 0) := by
    intro k w hk
    exact (h3 k w hk).2.1
  have hlens : ∀ k, ((ws.take k).map fun w => w.shape.getD axis 0) = sizes.take k := by
    intro k
    apply List.ext_getElem?
    intro i
    rw [List.getElem?_map, List.getElem?_take, List.getElem?_take]
    split
    · cases hw' : ws[i]? with
      | none =>
        have : sizes.length ≤ i := by rw [← h2]; exact List.getElem?_eq_none_iff.1 hw'
        rw [List.getElem?_eq_none this]; rfl
      | some w =>
        have hi : i < sizes.length := by rw [← h2]; exact (List.getElem?_eq_some_iff.1 hw').1
        rw [Option.map_some, hshape i w hw', List.getElem?_eq_getElem hi]
        simp [List.getD, List.getElem?_set, hax, List.getElem?_eq_getElem hi]
    · rfl
  have hjo : ∀ k, joinOffset axis (ws.map (·.denote mem)) k = (sizes.take k).sum := by
    intro k
    unfold joinOffset
    rw [← List.map_take, List.map_map]
    rw [← hlens k]
    rfl
  have hne : ∃ w0, ws[0]? = some w0 := by
    cases ws with
    | nil => simp [concatenate] at hr
    | cons w ws => exact ⟨w, rfl⟩
  obtain ⟨w0, hw0⟩ := hne
  have hrs : r.shape = v.shape := by
    rw [c1 (w0.denote mem) (by simp [hw0])]
    have e : ((ws.map (·.denote mem)).map fun a => a.shape.getD axis 0).sum = len := by
      have := hjo ws.length
      unfold joinOffset at this
      rw [← List.map_take, List.take_length] at this
      rw [this, h2, List.take_length, hsum]
    rw [e]
    simp only [View.denote]
    rw [hshape 0 w0 hw0, List.set_set]
    apply List.ext_getElem?
    intro i
    rw [List.getElem?_set]
    by_cases he : axis = i
    · subst he; simp [hax, ← (List.getElem?_eq_some_iff.1 hlen).2]
    · simp [he]
  rw [Arr.is_iff]
  refine ⟨hrs, by rw [c2, hrs]; rfl, fun j hj => ?_⟩
  have hj' : InShape r.shape j := by rw [hrs]; exact hj
  obtain ⟨k, a, idx, hk, hi, rfl⟩ := c4 j hj'
  rw [(c3 k a hk idx hi).2]
  rw [List.getElem?_map, Option.map_eq_some_iff] at hk
  obtain ⟨w, hwk, rfl⟩ := hk
  have hs := (h3 k w hwk).2.2 idx hi
  rw [hs]
  simp only [Nd.slice, hjo]
  congr 2
  apply List.ext_getElem?
  intro i
  rw [List.getElem?_modify, List.getElem?_modify]
  split
  · cases idx[i]? with
    | none => rfl
    | some x => simp; omega
  · rfl

example : (split (View.fresh [4, 2] 1) 2 0) =
    some [⟨0, [2, 2], [2, 1], 1, true, false⟩, ⟨4, [2, 2], [2, 1], 1, true, false⟩] := by decide

/-- C12 fails: joining a float64 array with an int64 array reinterprets the bytes of the
second array; the integer `1` becomes the float with bit pattern `1`, not `1.0` (whose bytes
are `00 00 00 00 00 00 f0 3f`). -/
theorem C12_mixed_dtype_counterexample :
    concatBytes1 8 [1, 0, 0, 0, 0, 0, 0, 0] 8 1 = some [1, 0, 0, 0, 0, 0, 0, 0] ∧
    ([1, 0, 0, 0, 0, 0, 0, 0] : List UInt8) ≠ [0, 0, 0, 0, 0, 0, 0xf0, 0x3f] := by
  decide

/-- C12 fails: joining an 8-byte dtype with a 4-byte dtype reads past the end of the second
array's buffer. -/
theorem C12_mixed_itemsize_counterexample (src : List UInt8) (h : src.length = 4) :
    concatBytes1 8 src 4 1 = none := by
  simp [concatBytes1, h, List.range_succ]

/-- C12, proved part: when the item sizes agree, joining copies the bytes of every element
unchanged. -/
theorem C12_same_itemsize_partial (item len : Nat) (src : List UInt8) (h : src.length = len * item) :
    concatBytes1 item src item len = some src := by
  have key : ∀ (n : Nat) (src : List UInt8), src.length = n * item →
      ((List.range n).mapM fun k =>
        if k * item + item ≤ src.length then some ((src.drop (k * item)).take item) else none)
      = some ((List.range n).map fun k => (src.drop (k * item)).take item) := by
    intro n src hs
    have : ∀ l : List Nat, (∀ k ∈ l, k < n) → (l.mapM fun k =>
        if k * item + item ≤ src.length then some ((src.drop (k * item)).take item) else none)
        = some (l.map fun k => (src.drop (k * item)).take item) := by
      intro l
      induction l with
      | nil => intro _; rfl
      | cons k l ih =>
        intro hl
        have hk := hl k (by simp)
        have h1 : (k + 1) * item ≤ n * item := Nat.mul_le_mul_right _ hk
        rw [Nat.succ_mul] at h1
        rw [List.mapM_cons, if_pos (by omega), ih (fun x hx => hl x (by simp [hx]))]
        rfl
    exact this _ (fun k hk => List.mem_range.1 hk)
  unfold concatBytes1
  rw [key len src h, Option.map_some, Option.some.injEq]
  clear key
  induction len generalizing src with
  | zero => simp at h; simp [h]
  | succ n ih =>
    rw [Nat.succ_mul] at h
    rw [List.range_succ_eq_map, List.map_cons, List.flatten_cons, List.map_map]
    have := ih (src.drop item) (by simp [h])
    have e : (fun k => (src.drop (k * item)).take item) ∘ Nat.succ
        = fun k => ((src.drop item).drop (k * item)).take item := by
      funext k
      simp only [Function.comp, List.drop_drop, Nat.succ_mul]
      rw [Nat.add_comm item]
    rw [e, this]
    simp

end Props
