import Verif.Lemmas.SetOps
import Verif.Lemmas.Float
import Verif.Spec.Ieee
import Verif.Props.Sort
import Mathlib.Algebra.Order.Ring.Rat
import Mathlib.Tactic.NormNum
/-!
# C23, C24: distinct values and set operations

`rd` reads an element as `f64`, `wr` stores an `f64` with the result's dtype.  `φ` is the linearly
ordered type of the values read (no NaN; `0.0` and `-0.0` are one value).
-/

namespace Props
open Spec Rumpy

/-! ### C23: unique -/

/-- `(a - b).abs() < f64::EPSILON` for finite values (exact difference). -/
def nearRat (a b : ℚ) : Bool := decide (|a - b| < 1 / 2 ^ 52)

/-- The same with the infinities: a difference with an infinite operand is infinite or NaN. -/
def nearF64 : WithBot (WithTop ℚ) → WithBot (WithTop ℚ) → Bool
  | some (some a), some (some b) => nearRat a b
  | _, _ => false

/-- C23 (partial): `unique` returns each element of the array exactly once, in increasing order.
Proved when different values are not within EPSILON of each other, equal ones are (not so for
infinities), and elements survive the round trip through `f64`. -/
theorem C23_unique_partial {α φ : Type} [LinearOrder φ] (near : φ → φ → Bool) (rd : α → φ) (wr : φ → α) (typed : Bool)
    (mem : Int → α) (v : View) (hw : v.WF)
    (hnear : ∀ x ∈ (v.denote mem).toList, ∀ y ∈ (v.denote mem).toList, near (rd x) (rd y) = true ↔ rd x = rd y)
    (hrw : ∀ x ∈ (v.denote mem).toList, wr (rd x) = x) :
    let out := (unique near (collectValues rd typed mem v)).map wr
    (∀ x, x ∈ out ↔ x ∈ (v.denote mem).toList) ∧ out.Pairwise fun x y => rd x < rd y := by
  rw [collectValues_eq hw]
  generalize (v.denote mem).toList = l at hnear hrw ⊢
  have h := dedupBy_spec near (sortValues (l.map rd)) (by
    intro x hx y hy
    rw [sortValues_mem] at hx hy
    obtain ⟨a, ha, rfl⟩ := List.mem_map.1 hx
    obtain ⟨b, hb, rfl⟩ := List.mem_map.1 hy
    exact hnear a ha b hb) (sortValues_sorted _)
  have hm : ∀ x, x ∈ unique near (l.map rd) ↔ x ∈ l.map rd := fun x => (h.2 x).trans sortValues_mem
  have hrd : ∀ x ∈ unique near (l.map rd), rd (wr x) = x := by
    intro x hx
    obtain ⟨a, ha, rfl⟩ := List.mem_map.1 ((hm x).1 hx)
    rw [hrw a ha]
  refine ⟨?_, ?_⟩
  · intro x
    rw [List.mem_map]
    constructor
    · rintro ⟨y, hy, rfl⟩
      obtain ⟨a, ha, rfl⟩ := List.mem_map.1 ((hm y).1 hy)
      rwa [hrw a ha]
    · intro hx
      exact ⟨rd x, (hm _).2 (List.mem_map_of_mem hx), hrw x hx⟩
  · rw [List.pairwise_map]
    refine h.1.imp_of_mem ?_
    intro a b ha hb hab
    rwa [hrd a ha, hrd b hb]

/-- C23 (partial), integers: for integer arrays with elements up to 2^53 in absolute value
`unique` gives the sorted set of the elements. -/
theorem C23_unique_i64_partial (typed : Bool) (mem : Int → Int) (v : View) (hw : v.WF)
    (hsm : ∀ x ∈ (v.denote mem).toList, x.natAbs ≤ 2 ^ 53) :
    SortedSet ((unique (fun a b : Int => nearRat a b) (collectValues intToF64 typed mem v)).map
      (f64ToInt (-2 ^ 63) (2 ^ 63 - 1))) (· ∈ (v.denote mem).toList) := by
  have h := C23_unique_partial (fun a b : Int => nearRat a b) intToF64 (f64ToInt (-2 ^ 63) (2 ^ 63 - 1)) typed mem v hw
    (by
      intro x _ y _
      unfold nearRat
      rw [decide_eq_true_iff]
      generalize intToF64 x = a
      generalize intToF64 y = b
      constructor
      · intro h
        by_contra hne
        have h1 : 1 ≤ |a - b| := Int.one_le_abs (sub_ne_zero.2 hne)
        have h2 : (1 : ℚ) ≤ |(a : ℚ) - b| := by exact_mod_cast h1
        have h3 : (1 : ℚ) / 2 ^ 52 ≤ 1 := by norm_num
        exact absurd h (not_lt.2 (h3.trans h2))
      · rintro rfl; norm_num)
    (fun x hx => viaF64_exact (hsm x hx))
  refine ⟨?_, h.1⟩
  refine h.2.imp_of_mem ?_
  intro a b ha hb hab
  rwa [intToF64_exact (hsm a ((h.1 a).1 ha)), intToF64_exact (hsm b ((h.1 b).1 hb))] at hab

/-- C23 (partial), floats: for arrays of finite numbers that are equal or at least EPSILON apart
`unique` gives the sorted set of the elements. -/
theorem C23_unique_f64_partial (typed : Bool) (mem : Int → ℚ) (v : View) (hw : v.WF)
    (hsep : ∀ x ∈ (v.denote mem).toList, ∀ y ∈ (v.denote mem).toList, x = y ∨ 1 / 2 ^ 52 ≤ |x - y|) :
    SortedSet (unique nearRat (collectValues id typed mem v)) (· ∈ (v.denote mem).toList) := by
  have h := C23_unique_partial nearRat id id typed mem v hw
    (by
      intro x hx y hy
      unfold nearRat
      rw [decide_eq_true_iff]
      constructor
      · intro h
        exact (hsep x hx y hy).resolve_right (not_le.2 h)
      · rintro h
        have h : x = y := h
        subst h; norm_num)
    (fun x _ => rfl)
  rw [List.map_id] at h
  exact ⟨h.2, h.1⟩

example : unique (fun a b : Int => decide (a = b)) (collectValues id true (fun p => [3, 1, 3, 2, 1, 1].getD p.toNat 0)
    (View.fresh [2, 3] 1)) = [1, 2, 3] := by decide
example : ∀ x ∈ [(1 : ℚ), 1/2, 3, 1], ∀ y ∈ [(1 : ℚ), 1/2, 3, 1], x = y ∨ 1 / 2 ^ 52 ≤ |x - y| := by
  decide +kernel

/-- C23 fails for close floats: of `0` and `2^-53` only one is returned; and for infinities:
`unique([inf, inf])` has two entries. -/
theorem C23_unique_counterexample :
    unique nearRat [0, 1 / 2 ^ 53] = [0] ∧
    unique nearF64 [⊤, ⊤] = [⊤, ⊤] := by
  constructor <;> decide +kernel

/-- C23 fails for large integers: `unique` of `[2^53, 2^53 + 1]` has one entry. -/
theorem C23_unique_i64_counterexample :
    ((unique (fun a b : Int => nearRat a b) ([2 ^ 53, 2 ^ 53 + 1].map intToF64)).map
      (f64ToInt (-2 ^ 63) (2 ^ 63 - 1))) = [2 ^ 53] := by
  decide +kernel

/-- C23 (partial): `unique_all` (and with it `unique_counts`, `unique_inverse`): the values are the
sorted set, the indices point to first occurrences, the counts are the numbers of occurrences,
and the inverse rebuilds the input, for values of which the equal ones and only those are within
EPSILON. -/
theorem C23_unique_all_partial {α φ : Type} [LinearOrder φ] (near : φ → φ → Bool) (rd : α → φ) (typed : Bool)
    (mem : Int → α) (v : View) (hw : v.WF)
    (hnear : ∀ x ∈ (v.denote mem).toList, ∀ y ∈ (v.denote mem).toList, near (rd x) (rd y) = true ↔ rd x = rd y) :
    let l := (v.denote mem).toList.map rd
    let r := uniqueAll near (collectValues rd typed mem v)
    SortedSet r.values (· ∈ l) ∧ r.first = r.values.map (l.idxOf ·) ∧ r.counts = r.values.map (l.count ·) ∧
      r.inverse.map (r.values[·]?) = l.map some := by
  rw [collectValues_eq hw]
  apply uniqueAll_spec
  intro x hx y hy
  obtain ⟨a, ha, rfl⟩ := List.mem_map.1 hx
  obtain ⟨b, hb, rfl⟩ := List.mem_map.1 hy
  exact hnear a ha b hb

example : uniqueAll (fun a b : Nat => a == b) [3, 1, 3, 2, 1, 1] = ⟨[1, 2, 3], [1, 3, 0], [2, 0, 2, 1, 0, 0], [3, 1, 2]⟩ := by
  decide

/-! ### C24: set operations -/

section
variable {α β φ γ : Type} [LinearOrder φ] (rda : α → φ) (rdb : β → φ) (wr : φ → γ) (ta tb : Bool)
  (mema : Int → α) (va : View) (memb : Int → β) (vb : View) (hwa : va.WF) (hwb : vb.WF)
include hwa hwb

/-- C24: `intersect1d` stores, in increasing order and each once, exactly the values that occur in
both arrays. -/
theorem C24_intersect1d :
    ∃ out, intersect1d wr (collectValues rda ta mema va) (collectValues rdb tb memb vb) = out.map wr ∧
      SortedSet out fun x => (∃ a ∈ (va.denote mema).toList, rda a = x) ∧ ∃ b ∈ (vb.denote memb).toList, rdb b = x := by
  rw [collectValues_eq hwa, collectValues_eq hwb]
  have h1 := sortedUnique_spec ((va.denote mema).toList.map rda)
  have h2 := sortedUnique_spec ((vb.denote memb).toList.map rdb)
  refine ⟨_, rfl, intersectLoop_sorted _ _ _ le_rfl h1.1 h2.1, fun x => ?_⟩
  rw [intersectLoop_mem _ _ _ le_rfl h1.1 h2.1, h1.2, h2.2]
  simp only [List.mem_map]

/-- C24: `union1d` stores, in increasing order and each once, exactly the values that occur in one
of the arrays. -/
theorem C24_union1d :
    ∃ out, union1d wr (collectValues rda ta mema va) (collectValues rdb tb memb vb) = out.map wr ∧
      SortedSet out fun x => (∃ a ∈ (va.denote mema).toList, rda a = x) ∨ ∃ b ∈ (vb.denote memb).toList, rdb b = x := by
  rw [collectValues_eq hwa, collectValues_eq hwb]
  have h1 := sortedUnique_spec ((va.denote mema).toList.map rda)
  have h2 := sortedUnique_spec ((vb.denote memb).toList.map rdb)
  refine ⟨_, rfl, unionLoop_sorted _ _ _ le_rfl h1.1 h2.1, fun x => ?_⟩
  rw [unionLoop_mem, h1.2, h2.2]
  simp only [List.mem_map]

/-- C24: `setdiff1d` stores, in increasing order and each once, exactly the values of the first
array that do not occur in the second. -/
theorem C24_setdiff1d :
    ∃ out, setdiff1d wr (collectValues rda ta mema va) (collectValues rdb tb memb vb) = out.map wr ∧
      SortedSet out fun x => (∃ a ∈ (va.denote mema).toList, rda a = x) ∧ ¬ ∃ b ∈ (vb.denote memb).toList, rdb b = x := by
  rw [collectValues_eq hwa, collectValues_eq hwb]
  have h1 := sortedUnique_spec ((va.denote mema).toList.map rda)
  have h2 := sortedUnique_spec ((vb.denote memb).toList.map rdb)
  refine ⟨_, rfl, diffLoop_sorted _ _ _ le_rfl h1.1 h2.1, fun x => ?_⟩
  rw [diffLoop_mem _ _ _ le_rfl h1.1 h2.1, h1.2, h2.2]
  simp only [List.mem_map]

/-- C24: `setxor1d` stores, in increasing order and each once, exactly the values that occur in
one array only. -/
theorem C24_setxor1d :
    ∃ out, setxor1d wr (collectValues rda ta mema va) (collectValues rdb tb memb vb) = out.map wr ∧
      SortedSet out fun x => ¬ ((∃ a ∈ (va.denote mema).toList, rda a = x) ↔ ∃ b ∈ (vb.denote memb).toList, rdb b = x) := by
  rw [collectValues_eq hwa, collectValues_eq hwb]
  have h1 := sortedUnique_spec ((va.denote mema).toList.map rda)
  have h2 := sortedUnique_spec ((vb.denote memb).toList.map rdb)
  refine ⟨_, rfl, xorLoop_sorted _ _ _ le_rfl h1.1 h2.1, fun x => ?_⟩
  rw [xorLoop_mem _ _ _ le_rfl h1.1 h2.1, h1.2, h2.2]
  simp only [List.mem_map]
  generalize (∃ a ∈ (va.denote mema).toList, rda a = x) = A
  generalize (∃ b ∈ (vb.denote memb).toList, rdb b = x) = B
  tauto

end

example : intersect1d id [3, 1, 3, 5] [5, 2, 3, 4] = [3, 5] := by decide
example : union1d id [3, 1, 3, 5] [5, 2, 3, 4] = [1, 2, 3, 4, 5] := by decide
example : setdiff1d id [3, 1, 3, 5] [5, 2, 3, 4] = [1] := by decide
example : setxor1d id [3, 1, 3, 5] [5, 2, 3, 4] = [1, 2, 4] := by decide

/-- C24 fails for large integers: `setdiff1d([2^53 + 1], [2^53])` is empty although the numbers
differ. -/
theorem C24_i64_counterexample :
    setdiff1d (f64ToInt (-2 ^ 63) (2 ^ 63 - 1)) ([2 ^ 53 + 1].map intToF64) ([2 ^ 53].map intToF64) = [] := by
  decide +kernel

/-- C24 (partial): `isin` says, position by position, whether the element occurs among the test
values (or the opposite with `invert`), when equal values have equal bit patterns (all numbers
but zeros; NaN is not equal to itself but has one pattern). -/
theorem C24_isin_partial {α φ : Type} [DecidableEq φ] (bits : φ → Nat) (rd : α → φ) (typed : Bool) (mem : Int → α)
    (v : View) (hw : v.WF) (tests : List φ) (invert : Bool)
    (hb : ∀ x ∈ (v.denote mem).toList, ∀ t ∈ tests, bits (rd x) = bits t ↔ rd x = t) :
    (isin bits rd typed mem v tests invert).Is ⟨v.shape, fun idx => decide (rd ((v.denote mem).get idx) ∈ tests) != invert⟩ := by
  unfold isin
  dsimp only
  split
  · rename_i h
    refine ⟨rfl, ?_⟩
    rw [sizeOf_eq] at h
    have : (indices v.shape).length = 0 := by rw [length_indices, h]
    simp [Nd.toList, List.length_eq_zero_iff.1 this]
  · refine ⟨rfl, ?_⟩
    rw [collectValues_eq hw, writes_zipIdx (fun x : φ => (tests.map bits).contains (bits x) != invert)]
    · simp only [Nd.toList, List.map_map]
      apply List.map_congr_left
      intro idx hi
      have hx : (v.denote mem).get idx ∈ (v.denote mem).toList := List.mem_map_of_mem hi
      simp only [Function.comp]
      congr 1
      rw [Bool.eq_iff_iff, List.contains_iff_mem, decide_eq_true_iff, List.mem_map]
      constructor
      · rintro ⟨t, ht, e⟩
        rw [(hb _ hx t ht).1 e.symm]; exact ht
      · intro h
        exact ⟨_, h, rfl⟩
    · simp only [Nd.toList, List.length_map, length_indices, List.length_replicate, sizeOf_eq]
      rfl

example : isin id id true (fun p => [3, 1, 2, 7].getD p.toNat 0) (View.fresh [2, 2] 1) [7, 3] false =
    ⟨[2, 2], [true, false, false, true]⟩ := by decide

/-- C24 fails for signed zeros and NaN: `isin([-0.0], [0.0])` is false although the numbers are
equal, and `isin([nan], [nan])` is true although NaN equals nothing. -/
theorem C24_isin_counterexample :
    let negZero : BitVec 64 := 0x8000000000000000#64
    let nan : BitVec 64 := 0x7ff8000000000000#64
    ieeeEq negZero 0#64 = true ∧
    (isin BitVec.toNat id true (fun _ => negZero) (View.fresh [1] 8) [0#64] false).data = [false] ∧
    ieeeEq nan nan = false ∧
    (isin BitVec.toNat id true (fun _ => nan) (View.fresh [1] 8) [nan] false).data = [true] := by
  decide

theorem reshape_wf {v w : View} {s : List Nat} (h : v.reshape s = some w) : w.WF := by
  unfold View.reshape at h
  split at h
  · simp at h
  · split at h
    · simp at h
    · simp only [Option.some.injEq] at h
      subst h
      apply View.WF.viewWith
      split
      · exact cStrides_length _ _
      · exact fStridesLoop_length _ _

/-- C24 (partial): `in1d` of a C-contiguous array is the flat list of answers. -/
theorem C24_in1d_partial {α φ : Type} [DecidableEq φ] (bits : φ → Nat) (rd : α → φ) (typed eight : Bool) (mem : Int → α)
    (v : View) (hw : v.WF) (hc : v.cFlag = true) (tests : List φ) (invert : Bool) (zero : α)
    (hb : ∀ x ∈ (v.denote mem).toList, ∀ t ∈ tests, bits (rd x) = bits t ↔ rd x = t) :
    in1d bits rd typed eight mem v tests invert zero =
      ⟨[size v.shape], (v.denote mem).toList.map fun x => decide (rd x ∈ tests) != invert⟩ := by
  obtain ⟨w, hr, hs⟩ := reshape_flat hc
  obtain ⟨_, _, hlist⟩ := C08_reshape_partial mem v w hw _ hc hr
  unfold in1d
  rw [hr]
  dsimp only
  have h := C24_isin_partial bits rd typed mem w (reshape_wf hr) tests invert (by rw [hlist]; exact hb)
  have e : ∀ a b : Arr Bool, a.shape = b.shape → a.data = b.data → a = b := by
    rintro ⟨⟩ ⟨⟩ h1 h2; simp_all
  apply e
  · rw [h.1]; exact hs
  · rw [h.2, ← hlist]
    simp only [Nd.toList, List.map_map]
    rfl

/-- C24 (partial): for arrays that are neither C- nor F-contiguous, `in1d` gives the answers in
row-major order, but with the shape of the input. -/
theorem C24_in1d_strided_partial {α φ : Type} [DecidableEq φ] (bits : φ → Nat) (rd : α → φ) (typed eight : Bool)
    (mem : Int → α) (v : View) (hw : v.WF) (hc : v.cFlag = false) (hf : v.fFlag = false) (hitem : 0 < v.item)
    (hal : eight = true → ∀ s ∈ v.strides, (v.item : Int) ∣ s) (tests : List φ) (invert : Bool) (zero : α)
    (hb : ∀ x ∈ (v.denote mem).toList, ∀ t ∈ tests, bits (rd x) = bits t ↔ rd x = t) :
    in1d bits rd typed eight mem v tests invert zero =
      ⟨v.shape, (v.denote mem).toList.map fun x => decide (rd x ∈ tests) != invert⟩ := by
  have hr : v.reshape [Rumpy.sizeOf v.shape] = none := by
    have h := C08_reshape_succeeds_iff v [Rumpy.sizeOf v.shape]
    rw [hc, hf] at h
    rw [← Option.not_isSome_iff_eq_none, h]
    simp
  unfold in1d
  rw [hr]
  dsimp only
  have hcopy := copyArr_eq eight mem hw hal zero
  have hd := Arr.Is.denote hcopy hitem zero
  have hl := Nd.Same.toList hd
  have h := C24_isin_partial bits rd typed ((copyArr eight mem v zero).mem v.item zero) ((copyArr eight mem v zero).view v.item)
    (View.WF.fresh _ _) tests invert (by rw [hl]; exact hb)
  have e : ∀ a b : Arr Bool, a.shape = b.shape → a.data = b.data → a = b := by
    rintro ⟨⟩ ⟨⟩ h1 h2; simp_all
  apply e
  · rw [h.1]; exact hcopy.1
  · rw [h.2, ← hl]
    simp only [Nd.toList, List.map_map]
    rfl

example : in1d id id true true (fun p => p.toNat) ⟨0, [2, 2], [4, 2], 1, false, false⟩ [2, 4] false 0 =
    ⟨[2, 2], [false, true, true, false]⟩ := by decide

/-- C24 fails for Fortran order: for the transpose of `[[0, 3], [1, 2]]` (elements `0, 1, 3, 2`)
`in1d(.., [1])` marks the third position instead of the second. -/
theorem C24_in1d_counterexample :
    (View.denote (fun p => [0, 3, 1, 2].getD p.toNat 0) (View.fresh [2, 2] 1).transpose).toList = [0, 1, 3, 2] ∧
    in1d id id true true (fun p => [0, 3, 1, 2].getD p.toNat 0) (View.fresh [2, 2] 1).transpose [1] false 0 =
      ⟨[4], [false, false, true, false]⟩ := by
  decide

end Props
