import Verif.Lemmas.ArgOrder
import Verif.Props.ArgReduce
import Verif.Props.Arith
import Verif.Model.Calendar

/-!
# C108: argmax and argmin for every dtype
-/

namespace Props

open Spec Rumpy

/-! ### What is compared -/

theorem int_range {d : DType} {n : Int} (hx : (Elem.int n).OfType d) : ∃ lo hi, d.intRange = some (lo, hi) ∧ lo ≤ n ∧ n ≤ hi := by
  cases d <;> exact hx

theorem argRead_real {d : DType} (hd : d.Real) {x : Elem} (hx : x.OfType d) : (argRead d x).place = x.place := by
  cases x with
  | bool b => cases d <;> first | exact hx.elim | rfl
  | int n =>
    obtain ⟨lo, hi, hr, h1, h2⟩ := int_range hx
    have small : n.natAbs ≤ 2 ^ 53 → (Flt.num ((intToF64 n : Int) : ℚ)).place = (Elem.int n).place := fun h => by rw [intToF64_exact h]; rfl
    cases d <;> first | exact hd.elim | (cases hr; done) | rfl | skip
    cases hr
    exact small (by norm_num at h1 h2 ⊢; omega)
  | flt u => cases d <;> first | exact hx.elim | rfl
  | cpx u v => cases d <;> first | exact hx.elim | exact hd.elim
  | text s => cases d <;> first | exact hx.elim | exact hd.elim

/-- The searches start below and above everything. -/
theorem argRead_range {d : DType} {x : Elem} (hx : x.OfType d) {p : WithBot (WithTop ℚ)} (hp : x.place = some p) :
    ∃ a b, (argLow d).place = some a ∧ (argHigh d).place = some b ∧ a ≤ p ∧ p ≤ b := by
  by_cases ht : typedArg d = true
  · unfold argLow argHigh
    rw [if_pos ht, if_pos ht]
    cases x with
    | bool b => cases d <;> first | exact hx.elim | (cases ht; done)
    | int n =>
      obtain ⟨lo, hi, hr, h1, h2⟩ := int_range hx
      rw [hr]
      have : p = ((((n : ℚ)) : WithTop ℚ) : WithBot (WithTop ℚ)) := (Option.some.inj hp).symm
      subst this
      refine ⟨_, _, rfl, rfl, ?_, ?_⟩
      · exact WithBot.coe_le_coe.mpr (WithTop.coe_le_coe.mpr (Int.cast_le.mpr h1))
      · exact WithBot.coe_le_coe.mpr (WithTop.coe_le_coe.mpr (Int.cast_le.mpr h2))
    | flt u => cases d <;> first | exact hx.elim | (cases ht; done) | exact ⟨_, _, rfl, rfl, bot_le, le_top⟩
    | cpx u v => cases hp
    | text s => cases hp
  · unfold argLow argHigh
    rw [if_neg ht, if_neg ht]
    exact ⟨_, _, rfl, rfl, bot_le, le_top⟩

theorem gt_places (p q : WithBot (WithTop ℚ)) : fltGt (atPlace p) (atPlace q) = gtKey id p q := fltLt_atPlace q p

theorem lt_places (p q : WithBot (WithTop ℚ)) : fltLt (atPlace p) (atPlace q) = gtKey OrderDual.toDual p q := fltLt_atPlace p q

/-- The answers, if what is compared stands where the elements stand. -/
theorem arg_of_read {d : DType} (h : Held Elem) (hw : h.view.WF) (ht : Typed d h) (hn : size h.view.shape ≠ 0)
    (hr : ∀ i, InShape h.view.shape i → (argRead d (h.nd.get i)).place = (h.nd.get i).place)
    (ps : List (WithBot (WithTop ℚ))) (hp : h.nd.toList.map Elem.place = ps.map some) :
    FirstMax ps (argmaxFn d h) ∧ FirstMin ps (argminFn d h) := by
  have e : (h.view.denote fun p => argRead d (h.mem p)).toList.map Flt.place = ps.map some := by
    rw [← hp]
    unfold Nd.toList
    rw [List.map_map, List.map_map]
    exact List.map_congr_left fun i hi => hr i (mem_indices.mp hi)
  have hrange : ∀ p ∈ ps, ∃ a b, (argLow d).place = some a ∧ (argHigh d).place = some b ∧ a ≤ p ∧ p ≤ b := by
    intro p hm
    have : some p ∈ h.nd.toList.map Elem.place := by rw [hp]; exact List.mem_map_of_mem hm
    obtain ⟨x, hx, hxp⟩ := List.mem_map.mp this
    obtain ⟨i, hi, rfl⟩ := List.mem_map.mp hx
    exact argRead_range (ht i (mem_indices.mp hi)) hxp
  have hne : ∃ p, p ∈ ps := by
    have hl := congrArg List.length hp
    rw [List.length_map, List.length_map] at hl
    have hl2 : h.nd.toList.length = size h.view.shape := by
      unfold Nd.toList
      rw [List.length_map, length_indices]
      rfl
    exact List.exists_mem_of_length_pos (by omega)
  obtain ⟨p0, hp0⟩ := hne
  obtain ⟨a, b, ha, hb, -, -⟩ := hrange p0 hp0
  constructor
  · have := argFull_places id gt_places (typedArg d) (fun p => argRead d (h.mem p)) hw hn e ha fun p hm => by
      obtain ⟨a', b', ha', -, h1, -⟩ := hrange p hm
      rw [ha] at ha'
      cases ha'
      exact h1
    rwa [List.map_id] at this
  · rw [firstMin_iff]
    exact argFull_places OrderDual.toDual lt_places (typedArg d) (fun p => argRead d (h.mem p)) hw hn e hb fun p hm => by
      obtain ⟨a', b', -, hb', -, h2⟩ := hrange p hm
      rw [hb] at hb'
      cases hb'
      exact h2

/-- C108: for an array of bools, integers or floats of any width, any shape and any memory layout, with at least one element and no
NaN, `argmax` is the first row-major position of the largest element and `argmin` that of the smallest.  The elements are compared as
the exact numbers they are: 64-bit integers too. -/
theorem C108_reals (d : DType) (hd : d.Real) (h : Held Elem) (hw : h.view.WF) (ht : Typed d h) (hn : size h.view.shape ≠ 0)
    (ps : List (WithBot (WithTop ℚ))) (hp : h.nd.toList.map Elem.place = ps.map some) :
    FirstMax ps (argmaxFn d h) ∧ FirstMin ps (argminFn d h) :=
  arg_of_read h hw ht hn (fun i hi => argRead_real hd (ht i hi)) ps hp

/-- Two uint64 neighbours above 2^53, and float16 with infinities. -/
example : argmaxFn .u64 (stored .u64 [3] [.int 0, .int (2 ^ 63), .int (2 ^ 63 + 1)]) = 2 ∧
    argminFn .u64 (stored .u64 [3] [.int (2 ^ 63 + 1), .int (2 ^ 63), .int (2 ^ 63)]) = 1 ∧
    argmaxFn .f16 (stored .f16 [3] [.flt .negInf, .flt (.num 2), .flt (.num 2)]) = 1 ∧
    argminFn .f16 (stored .f16 [3] [.flt (.num 2), .flt .negInf, .flt .posInf]) = 1 ∧
    ((stored .u64 [3] [.int 0, .int (2 ^ 63), .int (2 ^ 63 + 1)]).nd.toList.map Elem.place) =
      ([0, 2 ^ 63, 2 ^ 63 + 1] : List ℚ).map fun q => some ((q : WithTop ℚ) : WithBot (WithTop ℚ)) := by
  decide +kernel

/-- C108 (partial): the same for datetimes and timedeltas of any unit, if every element lies within `2^53` of zero.  Missing: larger
values, which are rounded before they are compared, and NaT. -/
theorem C108_dates_partial (d : DType) (u : TimeUnit) (hd : d = .datetime u ∨ d = .timedelta u) (h : Held Elem) (hw : h.view.WF)
    (hn : size h.view.shape ≠ 0) (hs : ∀ i, InShape h.view.shape i → ∃ n : Int, h.nd.get i = .int n ∧ n.natAbs ≤ 2 ^ 53)
    (ht : Typed d h) (ps : List (WithBot (WithTop ℚ))) (hp : h.nd.toList.map Elem.place = ps.map some) :
    FirstMax ps (argmaxFn d h) ∧ FirstMin ps (argminFn d h) := by
  refine arg_of_read h hw ht hn (fun i hi => ?_) ps hp
  obtain ⟨n, e, hb⟩ := hs i hi
  rw [e]
  have : argRead d (.int n) = .num (intToF64 n) := by rcases hd with rfl | rfl <;> rfl
  rw [this, intToF64_exact hb]
  rfl

/-- Three days around 1970. -/
example : argmaxFn (.datetime .D) (stored (.datetime .D) [3] [.int (-1), .int 1, .int 0]) = 1 ∧
    argminFn (.timedelta .D) (stored (.timedelta .D) [3] [.int 3, .int (-2), .int (-2)]) = 1 := by
  decide +kernel

/-- C108: for dates the answer can be wrong: of two nanosecond times one nanosecond apart (in 2006) `argmax` names the earlier one, and
a time that is not a time counts as the smallest, so that `argmax` passes over it (NumPy: 0, as for NaN). -/
theorem C108_dates_counterexample :
    argmaxFn (.datetime .ns) (stored (.datetime .ns) [2] [.int (2 ^ 60), .int (2 ^ 60 + 1)]) = 0 ∧
    argmaxFn (.datetime .s) (stored (.datetime .s) [2] [.int NaT, .int 1]) = 1 := by
  decide +kernel

/-- C108: for complex numbers and strings `argmax` and `argmin` are always 0: every element is read as 0. -/
theorem C108_unordered (d : DType) (hd : ¬ d.Real) (h : Held Elem) (hw : h.view.WF)
    (hs : ∀ i, InShape h.view.shape i → readF64 (h.nd.get i) = none) : argmaxFn d h = 0 ∧ argminFn d h = 0 := by
  have htyped : typedArg d = false := by cases d <;> first | rfl | exact absurd trivial hd
  by_cases hn : size h.view.shape = 0
  · unfold argmaxFn argminFn argFull
    rw [sizeOf_eq, if_pos hn, if_pos hn]
    exact ⟨rfl, rfl⟩
  · have hread : ∀ i p, h.view.addrs[i]? = some p → argRead d (h.mem p) = (fun _ : Nat => Flt.num (0 : ℚ)) i := by
      intro i p hp
      have hm : p ∈ h.view.addrs := List.mem_of_getElem? hp
      rw [addrs_eq hw] at hm
      obtain ⟨idx, hi, rfl⟩ := List.mem_map.mp hm
      have := hs idx (mem_indices.mp hi)
      unfold argRead
      rw [htyped, if_neg (by simp)]
      have e : h.mem (h.view.addr idx) = h.nd.get idx := rfl
      rw [e, this]
      rfl
    have hscan : ∀ (gt : Flt ℚ → Flt ℚ → Bool) (init : Flt ℚ), gt (.num 0) (.num 0) = false → gt (.num 0) init = true → ∀ n, n ≠ 0 →
        (argScan gt (fun _ : Nat => Flt.num (0 : ℚ)) (List.range n) (init, 0)).2 = 0 := by
      intro gt init g1 g2 n hn'
      obtain ⟨m, rfl⟩ := Nat.exists_eq_succ_of_ne_zero hn'
      have step : ∀ js : List Nat, argScan gt (fun _ : Nat => Flt.num (0 : ℚ)) js (.num 0, 0) = (.num 0, 0) := by
        intro js
        induction js with
        | nil => rfl
        | cons j js ih =>
          unfold argScan
          rw [List.foldl_cons]
          dsimp only
          rw [g1, if_neg (by simp)]
          exact ih
      rw [List.range_eq_range', List.range'_succ]
      unfold argScan
      rw [List.foldl_cons]
      dsimp only
      rw [g2, if_pos rfl]
      exact congrArg Prod.snd (step _)
    unfold argmaxFn argminFn
    rw [argFull_scan (typedArg d) fltGt (argLow d) _ hw hn _ hread, argFull_scan (typedArg d) fltLt (argHigh d) _ hw hn _ hread, htyped]
    have hl : argLow d = .negInf := by unfold argLow; rw [htyped, if_neg (by simp)]
    have hh : argHigh d = .posInf := by unfold argHigh; rw [htyped, if_neg (by simp)]
    rw [hl, hh]
    exact ⟨hscan _ _ (by decide +kernel) (by decide +kernel) _ hn, hscan _ _ (by decide +kernel) (by decide +kernel) _ hn⟩

example : (∀ x ∈ (stored (.str 2) [2] [.text ['a'], .text ['b']]).nd.toList, readF64 x = none) ∧
    argmaxFn (.str 2) (stored (.str 2) [2] [.text ['a'], .text ['b']]) = 0 := by
  decide +kernel

/-- C108: so `argmax([0, 2])` is 0 when the numbers are stored as complex128 (NumPy: 1). -/
theorem C108_complex_counterexample :
    argmaxFn .c128 (stored .c128 [2] [.cpx (.num 0) (.num 0), .cpx (.num 2) (.num 0)]) = 0 ∧
    argmaxFn .f64 (stored .f64 [2] [.flt (.num 0), .flt (.num 2)]) = 1 := by
  decide +kernel

/-- C108: with a NaN the dtype decides: `argmax([nan, 1])` is 0 for float64 and 1 for float16 (NumPy: 0 for both). -/
theorem C108_nan_counterexample :
    argmaxFn .f64 (stored .f64 [2] [.flt .nan, .flt (.num 1)]) = 0 ∧
    argmaxFn .f16 (stored .f16 [2] [.flt .nan, .flt (.num 1)]) = 1 := by
  decide +kernel

/-- C108: an array without elements has an `argmax` and an `argmin`, 0, which is no position of it (NumPy: ValueError). -/
theorem C108_empty (d : DType) (h : Held Elem) (hn : size h.view.shape = 0) : argmaxFn d h = 0 ∧ argminFn d h = 0 := by
  unfold argmaxFn argminFn argFull
  rw [sizeOf_eq, if_pos hn, if_pos hn]
  exact ⟨rfl, rfl⟩

example : size (stored .f64 [0, 3] []).view.shape = 0 := by decide

/-! ### The index -/

theorem argScan_mem {α : Type} (gt : α → α → Bool) (d : Nat → α) : ∀ (js : List Nat) (s : α × Nat),
    (argScan gt d js s).2 = s.2 ∨ (argScan gt d js s).2 ∈ js := by
  intro js
  induction js with
  | nil => exact fun s => Or.inl rfl
  | cons j js ih =>
    intro s
    unfold argScan
    rw [List.foldl_cons]
    have := ih (if gt (d j) s.1 then (d j, j) else s)
    unfold argScan at this
    rcases this with h | h
    · rw [h]
      split
      · exact Or.inr List.mem_cons_self
      · exact Or.inl rfl
    · exact Or.inr (List.mem_cons_of_mem _ h)

theorem argFull_lt {α : Type} (typed : Bool) (gt : α → α → Bool) (init : α) (mem : Int → α) {v : View} (hw : v.WF)
    (hn : size v.shape ≠ 0) : argFull typed gt init mem v < size v.shape := by
  rw [argFull_scan typed gt init mem hw hn (fun i => mem (v.addrs.getD i 0)) fun i p hp => by simp [List.getD, hp]]
  split
  · unfold argContiguous
    rw [if_neg hn]
    dsimp only
    rcases argScan_mem gt (fun i => mem (v.addrs.getD i 0)) (List.range' 1 (size v.shape - 1)) (mem (v.addrs.getD 0 0), 0) with h | h
    · rw [h]
      exact Nat.pos_of_ne_zero hn
    · rw [List.mem_range'_1] at h
      omega
  · rcases argScan_mem gt (fun i => mem (v.addrs.getD i 0)) (List.range (size v.shape)) (init, 0) with h | h
    · rw [h]
      exact Nat.pos_of_ne_zero hn
    · exact List.mem_range.mp h

/-- C108: for an array of any dtype with at least one element, NaN, NaT and complex numbers included, `argmax` and `argmin` are
positions of the array, and Python gets exactly these as floats as long as the array has at most `2^53` elements. -/
theorem C108_index (d : DType) (h : Held Elem) (hw : h.view.WF) (hn : size h.view.shape ≠ 0) :
    argmaxFn d h < size h.view.shape ∧ argminFn d h < size h.view.shape ∧
    (size h.view.shape ≤ 2 ^ 53 → argmaxPy d h = (argmaxFn d h : Int) ∧ argminPy d h = (argminFn d h : Int)) := by
  have h1 : argmaxFn d h < size h.view.shape := argFull_lt _ _ _ _ hw hn
  have h2 : argminFn d h < size h.view.shape := argFull_lt _ _ _ _ hw hn
  refine ⟨h1, h2, fun hs => ?_⟩
  unfold argmaxPy argminPy
  rw [intToF64_exact (by rw [Int.natAbs_natCast]; omega), intToF64_exact (by rw [Int.natAbs_natCast]; omega)]
  exact ⟨rfl, rfl⟩

/-! ### Along an axis -/

/-- The elements along the lane through `idx`. -/
def laneElems (a : Nd Elem) (axis : Nat) (idx : List Nat) : List Elem :=
  (List.range (a.shape.getD axis 0)).map fun j => a.get (idx.insertIdx axis j)

/-- C108 (partial): along an axis with at least one position, for bool, int8 and float16 arrays of any layout, `argmax` and `argmin`
return, and each remaining index whose lane has no NaN holds the first position of the largest and of the smallest element of its
lane.  Missing: the dtypes with typed loops, for which see C19: there the call can read invalid memory. -/
theorem C108_axis_partial (d : DType) (hd : d = .bool ∨ d = .i8 ∨ d = .f16) (h : Held Elem) (hw : h.view.WF) (ht : Typed d h)
    (axis : Nat) (hax : axis < h.view.shape.length) (hn : h.view.shape.getD axis 0 ≠ 0) :
    ∃ r s, argmaxAxisFn d h axis = .ok r ∧ argminAxisFn d h axis = .ok s ∧
      r.data.length = size (h.view.shape.eraseIdx axis) ∧ s.data.length = size (h.view.shape.eraseIdx axis) ∧
      ∀ idx, InShape (h.view.shape.eraseIdx axis) idx → ∀ ps : List (WithBot (WithTop ℚ)),
        (laneElems h.nd axis idx).map Elem.place = ps.map some →
        ∃ k l, r.data[rank (h.view.shape.eraseIdx axis) idx]? = some k ∧ s.data[rank (h.view.shape.eraseIdx axis) idx]? = some l ∧
          FirstMax ps k ∧ FirstMin ps l := by
  have hreal : d.Real := by rcases hd with rfl | rfl | rfl <;> trivial
  have htyped : typedArg d = false := by rcases hd with rfl | rfl | rfl <;> rfl
  unfold argmaxAxisFn argminAxisFn
  rw [htyped]
  have e1 := argAxisSlow_eq fltGt (fun p => argRead d (h.mem p)) hw hax hn
  have e2 := argAxisSlow_eq fltLt (fun p => argRead d (h.mem p)) hw hax hn
  refine ⟨_, _, rfl, rfl, by rw [e1]; simp [length_indices], by rw [e2]; simp [length_indices], fun idx hi ps hp => ?_⟩
  have hlane : (List.range (h.view.shape.getD axis 0)).map
      (fun j => (lane (fun p => argRead d (h.mem p)) h.view axis idx j).place) = ps.map some := by
    rw [← hp]
    unfold laneElems
    rw [List.map_map]
    apply List.map_congr_left
    intro j hj
    have hin : InShape h.view.shape (idx.insertIdx axis j) := inShape_insertIdx hax hi (List.mem_range.mp hj)
    exact argRead_real hreal (ht _ hin)
  refine ⟨_, _, by rw [e1, List.getElem?_map, indices_getElem?_rank hi]; rfl, by rw [e2, List.getElem?_map, indices_getElem?_rank hi]; rfl,
    ?_, ?_⟩
  · have := argContiguous_places id gt_places hn hlane
    rwa [List.map_id] at this
  · rw [firstMin_iff]
    exact argContiguous_places OrderDual.toDual lt_places hn hlane

example : argmaxAxisFn .i8 (stored .i8 [2, 2] [.int (-3), .int 4, .int 7, .int 4]) 0 = .ok ⟨[2], [1, 0]⟩ ∧
    argminAxisFn .bool (stored .bool [2, 2] [.bool true, .bool false, .bool true, .bool true]) 1 = .ok ⟨[2], [1, 0]⟩ := by
  decide +kernel

end Props
