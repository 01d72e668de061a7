import Verif.Lemmas.Compare
import Verif.Lemmas.Float
import Mathlib.Algebra.Order.Ring.Rat
import Mathlib.Data.Rat.Cast.Order
/-!
# C69: comparisons, logical functions, all/any and closeness
-/

namespace Props
open Spec Rumpy

/-- `r` is a bool array of shape `out` that says at each index whether `P` holds there. -/
def Tells (r : Arr Bool) (out : List Nat) (P : List Nat → Prop) : Prop :=
  r.shape = out ∧ r.data.length = size out ∧ ∀ i, InShape out i → ∃ t, r.at? i = some t ∧ (t = true ↔ P i)

theorem tells_of_is {r : Arr Bool} {out : List Nat} {f : List Nat → Bool} (h : r.Is ⟨out, f⟩) {P : List Nat → Prop}
    (hp : ∀ i, InShape out i → (f i = true ↔ P i)) : Tells r out P := by
  obtain ⟨h1, h2, h3⟩ := Arr.is_iff.1 h
  exact ⟨h1, h2, fun i hi => ⟨f i, h3 i hi, hp i hi⟩⟩

private theorem bc_self {a : Nd α} {i : List Nat} (hi : InShape a.shape i) : (a.broadcast a.shape).get i = a.get i := by
  show a.get _ = _
  congr 1
  rw [Nat.sub_self, List.drop_zero]
  generalize a.shape = s at hi
  induction s generalizing i with
  | nil => cases i with
    | nil => rfl
    | cons => exact hi.elim
  | cons n s ih => cases i with
    | nil => exact hi.elim
    | cons j i =>
      rw [List.zipWith_cons_cons, ih hi.2]
      have := hi.1
      split
      · congr 1; omega
      · rfl

/-! ### Element-wise comparison -/

/-- C69: a comparison of two arrays is accepted exactly when their shapes broadcast. -/
theorem C69_compare_accepts (typed : Bool) (cmp : κ → κ → Bool) (sameA sameB : Bool) (rdA : α → κ) (rdB : β → κ) (item : Nat)
    (hi : 0 < item) (zero : κ) (a : Held α) (b : Held β) (ha : a.view.WF) (hb : b.view.WF) :
    (compareOp typed cmp sameA sameB rdA rdB item zero a b).isSome ↔ ∃ out, IsBroadcast a.view.shape b.view.shape out := by
  rw [compareOp_eq typed cmp sameA sameB rdA rdB hi zero ha hb]
  exact C15_binary_succeeds_iff _ _ _ _ _ _ ha hb _

/-- C69: whatever the layouts and dtypes, the result holds at each index of the broadcast shape the
comparison of the two converted elements. -/
theorem C69_compare (typed : Bool) (cmp : κ → κ → Bool) (sameA sameB : Bool) (rdA : α → κ) (rdB : β → κ) (item : Nat)
    (hi : 0 < item) (zero : κ) (a : Held α) (b : Held β) (ha : a.view.WF) (hb : b.view.WF) (out : List Nat)
    (ho : IsBroadcast a.view.shape b.view.shape out) (r : Arr Bool)
    (h : compareOp typed cmp sameA sameB rdA rdB item zero a b = some r) :
    r.Is ⟨out, fun i => cmp (rdA ((a.nd.broadcast out).get i)) (rdB ((b.nd.broadcast out).get i))⟩ := by
  rw [compareOp_eq typed cmp sameA sameB rdA rdB hi zero ha hb] at h
  exact C15_binary typed (fun x y => cmp (rdA x) (rdB y)) a.mem b.mem a.view b.view ha hb false r out ho h

/-- C69: float arrays compare as their values do: as numbers and infinities, and with a NaN on
either side only `!=` is true. -/
theorem C69_compare_float [LinearOrder K] (op : Cmp) (item : Nat) (hi : 0 < item) (zero : Flt K) (a b : Held (Flt K))
    (ha : a.view.WF) (hb : b.view.WF) (out : List Nat) (ho : IsBroadcast a.view.shape b.view.shape out) :
    ∃ r, compareOp true (cmpFlt op) true true id id item zero a b = some r ∧
      Tells r out fun i => op.HoldsFlt ((a.nd.broadcast out).get i) ((b.nd.broadcast out).get i) := by
  obtain ⟨r, hr⟩ := Option.isSome_iff_exists.1 ((C69_compare_accepts true (cmpFlt op) true true id id item hi zero a b ha hb).2 ⟨out, ho⟩)
  exact ⟨r, hr, tells_of_is (C69_compare true (cmpFlt op) true true id id item hi zero a b ha hb out ho r hr)
    fun i _ => cmpFlt_iff op _ _⟩

/-- C69: integer arrays of one dtype compare as the numbers their elements stand for. -/
theorem C69_compare_int (signed : Bool) (op : Cmp) (item : Nat) (hi : 0 < item) (a b : Held (BitVec w))
    (ha : a.view.WF) (hb : b.view.WF) (out : List Nat) (ho : IsBroadcast a.view.shape b.view.shape out) :
    ∃ r, compareOp true (cmpInt signed op) true true id id item 0#w a b = some r ∧
      Tells r out fun i => op.Holds (intValue signed ((a.nd.broadcast out).get i)) (intValue signed ((b.nd.broadcast out).get i)) := by
  obtain ⟨r, hr⟩ := Option.isSome_iff_exists.1 ((C69_compare_accepts true (cmpInt signed op) true true id id item hi 0#w a b ha hb).2 ⟨out, ho⟩)
  exact ⟨r, hr, tells_of_is (C69_compare true (cmpInt signed op) true true id id item hi 0#w a b ha hb out ho r hr)
    fun i _ => cmpInt_iff signed op _ _⟩

/-- C69: bool arrays compare with `False < True`. -/
theorem C69_compare_bool (op : Cmp) (item : Nat) (hi : 0 < item) (a b : Held Bool)
    (ha : a.view.WF) (hb : b.view.WF) (out : List Nat) (ho : IsBroadcast a.view.shape b.view.shape out) :
    ∃ r, compareOp false (cmpFlt op) true true (fun t => .num (if t then 1 else 0 : ℚ)) (fun t => .num (if t then 1 else 0 : ℚ))
        item (.num 0) a b = some r ∧
      Tells r out fun i => op.Holds ((a.nd.broadcast out).get i) ((b.nd.broadcast out).get i) := by
  obtain ⟨r, hr⟩ := Option.isSome_iff_exists.1 ((C69_compare_accepts false (cmpFlt op) true true
    (fun t => Flt.num (if t then 1 else 0 : ℚ)) (fun t => Flt.num (if t then 1 else 0 : ℚ)) item hi (.num 0) a b ha hb).2 ⟨out, ho⟩)
  refine ⟨r, hr, tells_of_is (C69_compare false (cmpFlt op) true true _ _ item hi _ a b ha hb out ho r hr) fun i _ => ?_⟩
  rw [cmpFlt_iff]
  generalize (a.nd.broadcast out).get i = x
  generalize (b.nd.broadcast out).get i = y
  cases op <;> cases x <;> cases y <;> simp [Cmp.HoldsFlt, Cmp.Holds, Flt.place] <;> norm_cast <;> decide +kernel

/-- Reading an int64 as float64. -/
def i64ToFlt (x : Int) : Flt ℚ := .num (intToF64 x : ℚ)

/-- C69 (partial): comparing an int64 array with a float64 array compares the exact values, provided
the integers are at most `2^53` in magnitude. Missing: larger integers, see the counterexample. -/
theorem C69_compare_mixed_partial (op : Cmp) (a : Held Int) (b : Held (Flt ℚ)) (ha : a.view.WF) (hb : b.view.WF)
    (hsmall : ∀ i, InShape a.view.shape i → (a.nd.get i).natAbs ≤ 2 ^ 53) (out : List Nat)
    (ho : IsBroadcast a.view.shape b.view.shape out) :
    ∃ r, compareOp true (cmpFlt op) false true i64ToFlt id 8 (.num 0) a b = some r ∧
      Tells r out fun i => op.HoldsFlt (.num ((a.nd.broadcast out).get i : ℚ)) ((b.nd.broadcast out).get i) := by
  obtain ⟨r, hr⟩ := Option.isSome_iff_exists.1 ((C69_compare_accepts true (cmpFlt op) false true i64ToFlt id 8 (by omega)
    (.num 0) a b ha hb).2 ⟨out, ho⟩)
  refine ⟨r, hr, tells_of_is (C69_compare true (cmpFlt op) false true _ _ 8 (by omega) _ a b ha hb out ho r hr) fun i hi => ?_⟩
  rw [cmpFlt_iff]
  have hb := (C09_broadcast_least _ _ _ (broadcastShapes_iff.2 ho)).1
  have := hsmall _ (inShape_broadcast hb hi)
  have e : i64ToFlt ((a.nd.broadcast out).get i) = .num ((a.nd.broadcast out).get i : ℚ) := by
    unfold i64ToFlt
    have e' : intToF64 ((a.nd.broadcast out).get i) = (a.nd.broadcast out).get i := intToF64_exact this
    rw [e']
  rw [e]
  rfl

/-- C69: `2^53 + 1` in an int64 array equals the float `2^53`. -/
theorem C69_compare_mixed_counterexample :
    compareOp true (cmpFlt .eq) false true i64ToFlt id 8 (.num 0) ⟨fun _ => 2 ^ 53 + 1, View.fresh [1] 8⟩
      ⟨fun _ => .num (2 ^ 53), View.fresh [1] 8⟩ = some ⟨[1], [true]⟩ ∧
    ¬ Cmp.eq.HoldsFlt (.num ((2 ^ 53 + 1 : Int) : ℚ)) (.num (2 ^ 53)) := by
  constructor
  · decide +kernel
  · simp [Cmp.HoldsFlt, Flt.place, Cmp.Holds]
    decide +kernel

/-- C69: swapping the operands and the operator gives the same answer. -/
theorem C69_swap [LinearOrder K] (typed : Bool) (op : Cmp) (sameA sameB : Bool) (rdA : α → Flt K) (rdB : β → Flt K) (item : Nat)
    (hi : 0 < item) (zero : Flt K) (a : Held α) (b : Held β) (ha : a.view.WF) (hb : b.view.WF) :
    compareOp typed (cmpFlt op) sameA sameB rdA rdB item zero a b =
      compareOp typed (cmpFlt op.swap) sameB sameA rdB rdA item zero b a := by
  have sym : ∀ {s t out : List Nat}, IsBroadcast s t out → IsBroadcast t s out := by
    rintro s t out ⟨h1, h2⟩
    refine ⟨by rw [h1, Nat.max_comm], fun k hk => ?_⟩
    rcases h2 k hk with h | h | h
    · exact Or.inl ⟨h.1.symm, h.2.trans h.1⟩
    · exact Or.inr (Or.inr h)
    · exact Or.inr (Or.inl h)
  have sw : ∀ x y : Flt K, cmpFlt op x y = cmpFlt op.swap y x := by
    intro x y
    have he : ∀ x y : Flt K, fltEq x y = fltEq y x := by
      intro x y
      cases x <;> cases y <;> simp [fltEq, eq_comm]
    cases op <;> simp only [cmpFlt, Cmp.swap, he x y]
  have i1 := C69_compare_accepts typed (cmpFlt op) sameA sameB rdA rdB item hi zero a b ha hb
  have i2 := C69_compare_accepts typed (cmpFlt op.swap) sameB sameA rdB rdA item hi zero b a hb ha
  by_cases hx : ∃ out, IsBroadcast a.view.shape b.view.shape out
  · obtain ⟨r, er⟩ := Option.isSome_iff_exists.1 (i1.2 hx)
    obtain ⟨out, ho⟩ := hx
    obtain ⟨r', er'⟩ := Option.isSome_iff_exists.1 (i2.2 ⟨out, sym ho⟩)
    obtain ⟨s1, d1⟩ := C69_compare typed (cmpFlt op) sameA sameB rdA rdB item hi zero a b ha hb out ho r er
    obtain ⟨s2, d2⟩ := C69_compare typed (cmpFlt op.swap) sameB sameA rdB rdA item hi zero b a hb ha out (sym ho) r' er'
    rw [er, er']
    cases r; cases r'
    simp only [Nd.toList, sw] at d1
    simp only [Nd.toList] at d2
    simp_all
  · have h1 := mt i1.1 hx
    have h2 := mt i2.1 (fun ⟨out, ho⟩ => hx ⟨out, sym ho⟩)
    rw [Option.not_isSome_iff_eq_none] at h1 h2
    rw [h1, h2]

/-- C69 (partial): comparing an array of one or more dimensions with a number compares each converted
element with it and keeps the shape. Missing: the conversion of large integers and 0-d arrays, see
the counterexamples. -/
theorem C69_compare_scalar_partial (typed : Bool) (cmp : κ → κ → Bool) (same : Bool) (rd : α → κ) (item : Nat) (hi : 0 < item)
    (zero : κ) (a : Held α) (ha : a.view.WF) (hne : a.view.shape ≠ []) (s : κ) :
    ∃ r, compareScalar typed cmp same rd item zero a s = some r ∧
      Tells r a.view.shape fun i => cmp (rd (a.nd.get i)) s = true := by
  have hlen : a.view.shape.length ≠ 0 := fun h => hne (List.length_eq_zero_iff.1 h)
  have hs : (Held.of (⟨[1], [s]⟩ : Arr κ) 8 zero).view.shape = [1] := rfl
  have ho : IsBroadcast a.view.shape (Held.of (⟨[1], [s]⟩ : Arr κ) 8 zero).view.shape a.view.shape := by
    rw [hs]
    refine ⟨by simp; omega, fun k hk => Or.inr (Or.inr ⟨?_, rfl⟩)⟩
    unfold dimR
    rcases k with _ | k <;> simp
  have hb : (Held.of (⟨[1], [s]⟩ : Arr κ) 8 zero).view.WF := View.WF.fresh _ _
  obtain ⟨r, hr⟩ := Option.isSome_iff_exists.1 ((C69_compare_accepts typed cmp same true rd id item hi zero a _ ha hb).2 ⟨_, ho⟩)
  refine ⟨r, hr, tells_of_is (C69_compare typed cmp same true rd id item hi zero a _ ha hb _ ho r hr) fun i hin => ?_⟩
  have hA : ((a.nd.broadcast a.view.shape).get i) = a.nd.get i := bc_self (a := a.nd) hin
  have hIs : (⟨[1], [s]⟩ : Arr κ).Is ⟨[1], fun _ => s⟩ := ⟨rfl, rfl⟩
  have hB : ((Held.of (⟨[1], [s]⟩ : Arr κ) 8 zero).nd.broadcast a.view.shape).get i = s :=
    (hIs.denote (by omega : 0 < 8) zero).2 _
      (inShape_broadcast (s := [1]) (C09_broadcast_least _ _ _ (broadcastShapes_iff.2 ho)).2.1 hin)
  rw [hA, hB]
  rfl

/-- C69: an int64 array holding `2^53 + 1` is not found unequal to the number `2^53`, and comparing a
0-d array with a number gives shape `(1,)`. -/
theorem C69_compare_scalar_counterexample :
    compareScalar true (cmpFlt .ne) false i64ToFlt 8 (.num 0) ⟨fun _ => 2 ^ 53 + 1, View.fresh [1] 8⟩ (.num (2 ^ 53)) =
      some ⟨[1], [false]⟩ ∧
    compareScalar true (cmpFlt .gt) false i64ToFlt 8 (.num 0) ⟨fun _ => 3, View.fresh [] 8⟩ (.num 2) = some ⟨[1], [true]⟩ := by
  constructor <;> decide +kernel

/-- C69: `==` and `!=` of complex arrays are exact. -/
theorem C69_complex_eq [CommRing K] [LinearOrder K] (item : Nat) (hi : 0 < item) (zero : Cpx K) (a b : Held (Cpx K))
    (ha : a.view.WF) (hb : b.view.WF) (out : List Nat) (ho : IsBroadcast a.view.shape b.view.shape out) (r : Arr Bool) :
    (compareOp true (cmpCpx .eq) true true id id item zero a b = some r →
      Tells r out fun i => (a.nd.broadcast out).get i = (b.nd.broadcast out).get i) ∧
    (compareOp true (cmpCpx .ne) true true id id item zero a b = some r →
      Tells r out fun i => (a.nd.broadcast out).get i ≠ (b.nd.broadcast out).get i) := by
  constructor <;> intro hr <;>
    exact tells_of_is (C69_compare true _ true true id id item hi zero a b ha hb out ho r hr) fun i _ => by simp [cmpCpx]

/-- C69: complex numbers are ordered by magnitude, so `1 > 2j` is false (NumPy orders them by real part
first) and `1 >= 1j` and `1 <= 1j` are both true of different numbers. -/
theorem C69_complex_order_counterexample :
    cmpCpx .gt (⟨1, 0⟩ : Cpx ℚ) ⟨0, 2⟩ = false ∧ cmpCpx .ge (⟨1, 0⟩ : Cpx ℚ) ⟨0, 1⟩ = true ∧
      cmpCpx .le (⟨1, 0⟩ : Cpx ℚ) ⟨0, 1⟩ = true ∧ cmpCpx .eq (⟨1, 0⟩ : Cpx ℚ) ⟨0, 1⟩ = false := by
  decide +kernel

/-- A string element read through `get_element` is `0.0` (src/array/dtype/string.rs:202-204). -/
def strToFlt (_ : List Char) : Flt ℚ := .num 0

/-- C69: any two string arrays of one shape are equal everywhere. -/
theorem C69_compare_string_counterexample :
    compareOp false (cmpFlt .eq) true true strToFlt strToFlt 4 (.num 0) ⟨fun _ => ['a'], View.fresh [1] 4⟩
      ⟨fun _ => ['b'], View.fresh [1] 4⟩ = some ⟨[1], [true]⟩ := by
  decide +kernel

/-- NaN, infinities and numbers; a column against a row. -/
example : compareOp true (cmpFlt .le) true true id id 8 (.num 0)
    ⟨fun p => if p = 0 then .nan else if p = 8 then .negInf else .num 2, View.fresh [3, 1] 8⟩
    ⟨fun p => if p = 0 then .num (1 : ℚ) else .posInf, View.fresh [2] 8⟩ =
      some ⟨[3, 2], [false, false, true, true, false, true]⟩ := by
  decide +kernel

/-- `255` is `-1` as an int8: `-1 < 1` but not `255 < 1`. -/
example : compareOp true (cmpInt true .lt) true true id id 1 0#8 ⟨fun _ => 255#8, View.fresh [1] 1⟩ ⟨fun _ => 1#8, View.fresh [1] 1⟩ =
      some ⟨[1], [true]⟩ ∧
    compareOp true (cmpInt false .lt) true true id id 1 0#8 ⟨fun _ => 255#8, View.fresh [1] 1⟩ ⟨fun _ => 1#8, View.fresh [1] 1⟩ =
      some ⟨[1], [false]⟩ := by
  decide +kernel

/-! ### Logical functions -/

private theorem toBool_accepts (f : α → β → Bool) (a : Held α) (b : Held β) (ha : a.view.WF) (hb : b.view.WF) :
    (mapBinaryToBool f a b).isSome ↔ ∃ out, IsBroadcast a.view.shape b.view.shape out :=
  C15_binary_succeeds_iff false f a.mem b.mem a.view b.view ha hb false

private theorem toBool_is (f : α → β → Bool) (a : Held α) (b : Held β) (ha : a.view.WF) (hb : b.view.WF) {out : List Nat}
    (ho : IsBroadcast a.view.shape b.view.shape out) {r : Arr Bool} (h : mapBinaryToBool f a b = some r) :
    r.Is ⟨out, fun i => f ((a.nd.broadcast out).get i) ((b.nd.broadcast out).get i)⟩ :=
  C15_binary false f a.mem b.mem a.view b.view ha hb false r out ho h

/-- C69: the logical functions accept exactly the shapes that broadcast, and at each index combine the
truth values of the two elements, which may have different dtypes. -/
theorem C69_logical (tA : α → Bool) (tB : β → Bool) (a : Held α) (b : Held β) (ha : a.view.WF) (hb : b.view.WF) :
    (((logicalAnd tA tB a b).isSome ↔ ∃ out, IsBroadcast a.view.shape b.view.shape out) ∧
      ((logicalOr tA tB a b).isSome ↔ ∃ out, IsBroadcast a.view.shape b.view.shape out) ∧
      ((logicalXor tA tB a b).isSome ↔ ∃ out, IsBroadcast a.view.shape b.view.shape out)) ∧
    ∀ out r, IsBroadcast a.view.shape b.view.shape out →
      (logicalAnd tA tB a b = some r →
        Tells r out fun i => tA ((a.nd.broadcast out).get i) = true ∧ tB ((b.nd.broadcast out).get i) = true) ∧
      (logicalOr tA tB a b = some r →
        Tells r out fun i => tA ((a.nd.broadcast out).get i) = true ∨ tB ((b.nd.broadcast out).get i) = true) ∧
      (logicalXor tA tB a b = some r →
        Tells r out fun i => ¬ (tA ((a.nd.broadcast out).get i) = true ↔ tB ((b.nd.broadcast out).get i) = true)) := by
  refine ⟨⟨toBool_accepts _ a b ha hb, toBool_accepts _ a b ha hb, toBool_accepts _ a b ha hb⟩, fun out r ho => ⟨?_, ?_, ?_⟩⟩
  · intro h
    exact tells_of_is (toBool_is _ a b ha hb ho h) fun i _ => by simp
  · intro h
    exact tells_of_is (toBool_is _ a b ha hb ho h) fun i _ => by simp
  · intro h
    refine tells_of_is (toBool_is _ a b ha hb ho h) fun i _ => ?_
    cases tA ((a.nd.broadcast out).get i) <;> cases tB ((b.nd.broadcast out).get i) <;> simp

/-- C69: `logical_not` tells at each index whether the element is false. -/
theorem C69_logical_not (t : α → Bool) (a : Held α) (ha : a.view.WF) :
    Tells (logicalNot t a) a.view.shape fun i => ¬ t (a.nd.get i) = true :=
  tells_of_is (C15_unary (fun x => !t x) a.mem a.view ha false).2 fun i _ => by simp [Held.nd]

example : logicalXor (fun x : Int => x != 0) (fun t : Bool => t) ⟨fun p => p, View.fresh [2] 8⟩ ⟨fun _ => true, View.fresh [2, 1] 1⟩ =
    some ⟨[2, 2], [true, false, true, false]⟩ := by
  decide +kernel

/-! ### all, any, count_nonzero -/

/-- C69: `all` says whether every element is true, `any` whether some element is, and
`count_nonzero` how many are. Of an empty array they are `True`, `False` and 0. -/
theorem C69_all_any (t : α → Bool) (a : Held α) (ha : a.view.WF) :
    (allElems t a = true ↔ ∀ i, InShape a.view.shape i → t (a.nd.get i) = true) ∧
    (anyElems t a = true ↔ ∃ i, InShape a.view.shape i ∧ t (a.nd.get i) = true) ∧
    countTruthy t a = ((indices a.view.shape).filter fun i => t (a.nd.get i)).length := by
  rw [allElems_eq t ha, anyElems_eq t ha, countTruthy_eq t ha]
  unfold Nd.toList
  refine ⟨?_, ?_, ?_⟩
  · rw [List.all_map, List.all_eq_true]
    exact ⟨fun h i hi => h i (mem_indices.2 hi), fun h i hi => h i (mem_indices.1 hi)⟩
  · rw [List.any_map, List.any_eq_true]
    exact ⟨fun ⟨i, hi, h⟩ => ⟨i, mem_indices.1 hi, h⟩, fun ⟨i, hi, h⟩ => ⟨i, mem_indices.2 hi, h⟩⟩
  · rw [List.countP_map, List.countP_eq_length_filter]
    rfl

/-- C69: `all` is the negation of `any` of the negation. -/
theorem C69_de_morgan (t : α → Bool) (a : Held α) (ha : a.view.WF) : allElems t a = !anyElems (fun x => !t x) a := by
  rw [allElems_eq t ha, anyElems_eq _ ha]
  induction a.nd.toList with
  | nil => rfl
  | cons x l ih => rw [List.all_cons, List.any_cons, ih, Bool.not_or, Bool.not_not]

example : allElems (fun x : Int => x != 0) ⟨fun p => p, View.fresh [3] 8⟩ = false ∧
    anyElems (fun x : Int => x != 0) ⟨fun p => p, View.fresh [3] 8⟩ = true ∧
    countTruthy (fun x : Int => x != 0) ⟨fun p => p, View.fresh [3] 8⟩ = 2 ∧
    allElems (fun _ : Int => false) ⟨fun p => p, View.fresh [0, 2] 8⟩ = true := by
  decide +kernel

private theorem erase_isEmpty {s : List Nat} {axis : Nat} (hax : axis < s.length) :
    (s.eraseIdx axis).isEmpty = true ↔ s.length = 1 := by
  rw [List.isEmpty_iff, ← List.length_eq_zero_iff, List.length_eraseIdx, if_pos hax]
  omega

/-- C69 (partial): along an axis, `all` and `any` hold for each remaining index the answer for its lane,
also for an empty axis, for the dtypes of the typed loops; and, when the axis is not empty, for
the other dtypes. Missing: the result of a 1-d array has shape `(1,)` instead of `()`, and the
other dtypes along an empty axis, see the counterexample. -/
theorem C69_axis_partial (typed : Bool) (t : α → Bool) (a : Held α) (ha : a.view.WF) (axis : Nat)
    (hax : axis < a.view.shape.length) (hn : typed = true ∨ a.view.shape.getD axis 0 ≠ 0) :
    (2 ≤ a.view.shape.length →
      Tells (allAxis typed t a axis) (a.view.shape.eraseIdx axis) (LaneAll (fun x => t x = true) a.nd axis) ∧
      Tells (anyAxis typed t a axis) (a.view.shape.eraseIdx axis) (LaneAny (fun x => t x = true) a.nd axis)) ∧
    (a.view.shape.length = 1 →
      (∃ x, allAxis typed t a axis = ⟨[1], [x]⟩ ∧ (x = true ↔ LaneAll (fun x => t x = true) a.nd axis [])) ∧
      ∃ x, anyAxis typed t a axis = ⟨[1], [x]⟩ ∧ (x = true ↔ LaneAny (fun x => t x = true) a.nd axis [])) := by
  have h1 : ∀ idx, (laneList a axis idx).all t = true ↔ LaneAll (fun x => t x = true) a.nd axis idx := by
    intro idx
    unfold laneList LaneAll
    simp [Held.nd, View.denote]
  have h2 : ∀ idx, (laneList a axis idx).any t = true ↔ LaneAny (fun x => t x = true) a.nd axis idx := by
    intro idx
    unfold laneList LaneAny
    simp [Held.nd, View.denote]
  have da : (allAxis typed t a axis).data = (indices (a.view.shape.eraseIdx axis)).map fun idx => (laneList a axis idx).all t := by
    unfold allAxis
    cases typed
    · rw [if_neg (by simp), logicalAxisFallback_data _ _ hax (by simpa using hn)]
      simp only [laneScan_all]
    · rw [if_pos rfl, logicalAxis_data _ _ ha hax]
      simp only [laneScan_all]
  have db : (anyAxis typed t a axis).data = (indices (a.view.shape.eraseIdx axis)).map fun idx => (laneList a axis idx).any t := by
    unfold anyAxis
    cases typed
    · rw [if_neg (by simp), logicalAxisFallback_data _ _ hax (by simpa using hn)]
      simp only [laneScan_any]
    · rw [if_pos rfl, logicalAxis_data _ _ ha hax]
      simp only [laneScan_any]
  have sa : (allAxis typed t a axis).shape = if (a.view.shape.eraseIdx axis).isEmpty then [1] else a.view.shape.eraseIdx axis := by
    unfold allAxis
    cases typed
    · exact logicalAxisFallback_shape _ _ _ _
    · exact logicalAxis_shape _ _ _ _
  have sb : (anyAxis typed t a axis).shape = if (a.view.shape.eraseIdx axis).isEmpty then [1] else a.view.shape.eraseIdx axis := by
    unfold anyAxis
    cases typed
    · exact logicalAxisFallback_shape _ _ _ _
    · exact logicalAxis_shape _ _ _ _
  constructor
  · intro hl
    have he : ¬ (a.view.shape.eraseIdx axis).isEmpty = true := by
      rw [erase_isEmpty hax]; omega
    rw [if_neg he] at sa sb
    exact ⟨tells_of_is (f := fun idx => (laneList a axis idx).all t) ⟨sa, da⟩ fun i _ => h1 i,
      tells_of_is (f := fun idx => (laneList a axis idx).any t) ⟨sb, db⟩ fun i _ => h2 i⟩
  · intro hl
    have he := (erase_isEmpty hax).2 hl
    rw [if_pos he] at sa sb
    rw [List.isEmpty_iff.1 he] at da db
    constructor
    · refine ⟨_, ?_, h1 []⟩
      generalize allAxis typed t a axis = r at *
      cases r
      simp only at sa da
      rw [sa, da]
      rfl
    · refine ⟨_, ?_, h2 []⟩
      generalize anyAxis typed t a axis = r at *
      cases r
      simp only at sb db
      rw [sb, db]
      rfl

/-- C69: `all` of an int8 (or datetime64) array along an empty axis is `False`; of the other dtypes,
and without an axis, it is `True`. -/
theorem C69_axis_counterexample :
    (allAxis false (fun x : Int => x != 0) ⟨fun p => p, View.fresh [0, 2] 1⟩ 0).data = [false, false] ∧
    (allAxis true (fun x : Int => x != 0) ⟨fun p => p, View.fresh [0, 2] 1⟩ 0).data = [true, true] ∧
    LaneAll (fun x : Int => (x != 0) = true) ((View.fresh [0, 2] 1).denote fun p => p) 0 [0] := by
  refine ⟨by decide +kernel, by decide +kernel, ?_⟩
  intro j hj
  exact absurd hj (by simp [View.denote, View.fresh])

example : (allAxis true (fun x : Int => x != 0) ⟨fun p => p, View.fresh [2, 3] 8⟩ 1) = ⟨[2], [false, true]⟩ ∧
    (anyAxis false (fun x : Int => x != 0) ⟨fun p => p, ⟨0, [2, 2], [0, 8], 8, false, false⟩⟩ 0) = ⟨[2], [false, true]⟩ := by
  decide +kernel

/-! ### isclose, allclose, array_equal -/

/-- C69: `isclose` accepts exactly the shapes that broadcast, and tells at each index whether the two
values are close in NumPy's sense. -/
theorem C69_isclose [CommRing K] [LinearOrder K] [IsStrictOrderedRing K] (rtol atol : K) (equalNan : Bool) (rdA : α → Flt K)
    (rdB : β → Flt K) (a : Held α) (b : Held β) (ha : a.view.WF) (hb : b.view.WF) :
    ((isclose rtol atol equalNan rdA rdB a b).isSome ↔ ∃ out, IsBroadcast a.view.shape b.view.shape out) ∧
    ∀ out r, IsBroadcast a.view.shape b.view.shape out → isclose rtol atol equalNan rdA rdB a b = some r →
      Tells r out fun i => IsClose rtol atol (equalNan = true) (rdA ((a.nd.broadcast out).get i)) (rdB ((b.nd.broadcast out).get i)) := by
  refine ⟨toBool_accepts _ a b ha hb, fun out r ho h => ?_⟩
  exact tells_of_is (toBool_is _ a b ha hb ho h) fun i _ => isCloseValue_iff rtol atol equalNan _ _

private theorem all_of_tells {r : Arr Bool} {out : List Nat} {P : List Nat → Prop} (h : Tells r out P) :
    allElems id (Held.of r 1 false) = true ↔ ∀ i, InShape out i → P i := by
  obtain ⟨hs, hl, hg⟩ := h
  have hIs : r.Is ⟨out, fun i => (r.at? i).getD false⟩ := by
    refine Arr.is_iff.2 ⟨hs, hl, fun i hi => ?_⟩
    obtain ⟨t, ht, -⟩ := hg i hi
    dsimp only
    rw [ht]; rfl
  have hw : (Held.of r 1 false).view.WF := View.WF.fresh _ _
  rw [(C69_all_any id _ hw).1]
  have hsh : (Held.of r 1 false).view.shape = out := hs
  have hsame := hIs.denote (by omega : 0 < 1) false
  constructor
  · intro h i hi
    obtain ⟨t, ht, hp⟩ := hg i hi
    have h1 := h i (hsh ▸ hi)
    have h2 : (Held.of r 1 false).nd.get i = (r.at? i).getD false := hsame.2 i (by rw [hsame.1]; exact hi)
    rw [h2, ht] at h1
    exact hp.1 h1
  · intro h i hi
    rw [hsh] at hi
    obtain ⟨t, ht, hp⟩ := hg i hi
    have h2 : (Held.of r 1 false).nd.get i = (r.at? i).getD false := hsame.2 i (by rw [hsame.1]; exact hi)
    rw [h2, ht]
    exact hp.2 (h i hi)

/-- C69: `allclose` says whether all pairs of broadcast elements are close. -/
theorem C69_allclose [CommRing K] [LinearOrder K] [IsStrictOrderedRing K] (rtol atol : K) (equalNan : Bool) (rdA : α → Flt K)
    (rdB : β → Flt K) (a : Held α) (b : Held β) (ha : a.view.WF) (hb : b.view.WF) (out : List Nat)
    (ho : IsBroadcast a.view.shape b.view.shape out) :
    ∃ t, allclose rtol atol equalNan rdA rdB a b = some t ∧ (t = true ↔ ∀ i, InShape out i →
      IsClose rtol atol (equalNan = true) (rdA ((a.nd.broadcast out).get i)) (rdB ((b.nd.broadcast out).get i))) := by
  obtain ⟨h1, h2⟩ := C69_isclose rtol atol equalNan rdA rdB a b ha hb
  obtain ⟨r, hr⟩ := Option.isSome_iff_exists.1 (h1.2 ⟨out, ho⟩)
  refine ⟨allElems id (Held.of r 1 false), ?_, all_of_tells (h2 out r ho hr)⟩
  unfold allclose
  rw [hr]
  rfl

/-- C69: shapes that do not broadcast make `allclose` an error. -/
theorem C69_allclose_rejects [CommRing K] [LinearOrder K] [IsStrictOrderedRing K] (rtol atol : K) (equalNan : Bool) (rdA : α → Flt K)
    (rdB : β → Flt K) (a : Held α) (b : Held β) (ha : a.view.WF) (hb : b.view.WF)
    (ho : ¬ ∃ out, IsBroadcast a.view.shape b.view.shape out) : allclose rtol atol equalNan rdA rdB a b = none := by
  have := mt (C69_isclose rtol atol equalNan rdA rdB a b ha hb).1.1 ho
  rw [Option.not_isSome_iff_eq_none] at this
  unfold allclose
  rw [this]
  rfl

/-- C69: `array_equal` is true exactly when the shapes agree and each pair of elements is equal
after conversion; different shapes are an answer, not an error. -/
theorem C69_array_equal (typed : Bool) (eq : κ → κ → Bool) (sameA sameB : Bool) (rdA : α → κ) (rdB : β → κ) (item : Nat)
    (hi : 0 < item) (zero : κ) (a : Held α) (b : Held β) (ha : a.view.WF) (hb : b.view.WF) :
    arrayEqual typed eq sameA sameB rdA rdB item zero a b = true ↔
      a.view.shape = b.view.shape ∧ ∀ i, InShape a.view.shape i → eq (rdA (a.nd.get i)) (rdB (b.nd.get i)) = true := by
  unfold arrayEqual
  by_cases hs : a.view.shape = b.view.shape
  · rw [if_neg (by simpa using hs)]
    have ho : IsBroadcast a.view.shape b.view.shape a.view.shape := by
      rw [← hs]
      exact ⟨by simp, fun k hk => Or.inl ⟨rfl, rfl⟩⟩
    obtain ⟨r, hr⟩ := Option.isSome_iff_exists.1 ((C69_compare_accepts typed eq sameA sameB rdA rdB item hi zero a b ha hb).2 ⟨_, ho⟩)
    have ht : Tells r a.view.shape fun i => eq (rdA (a.nd.get i)) (rdB (b.nd.get i)) = true := by
      refine tells_of_is (C69_compare typed eq sameA sameB rdA rdB item hi zero a b ha hb _ ho r hr) fun i hin => ?_
      have e1 : (a.nd.broadcast a.view.shape).get i = a.nd.get i := bc_self (a := a.nd) hin
      have e2 : (b.nd.broadcast b.view.shape).get i = b.nd.get i := bc_self (a := b.nd) (hs ▸ hin : InShape b.view.shape i)
      rw [← hs] at e2
      rw [e1, e2]
    rw [hr, Option.map_some, Option.getD_some, all_of_tells ht]
    exact ⟨fun h => ⟨hs, h⟩, fun h => h.2⟩
  · rw [if_pos hs]
    simp [hs]

/-- C69: float arrays are `array_equal` exactly when they have the same shape, no NaN and the same
numbers and infinities. -/
theorem C69_array_equal_float [LinearOrder K] (item : Nat) (hi : 0 < item) (zero : Flt K) (a b : Held (Flt K))
    (ha : a.view.WF) (hb : b.view.WF) :
    arrayEqual true (cmpFlt .eq) true true id id item zero a b = true ↔
      a.nd.Same b.nd ∧ ∀ i, InShape a.view.shape i → a.nd.get i ≠ .nan := by
  rw [C69_array_equal true (cmpFlt .eq) true true id id item hi zero a b ha hb]
  have key : ∀ x y : Flt K, cmpFlt .eq x y = true ↔ x = y ∧ x ≠ .nan := by
    intro x y
    cases x <;> cases y <;> simp [cmpFlt, fltEq]
  constructor
  · rintro ⟨h1, h2⟩
    exact ⟨⟨h1, fun i hin => ((key _ _).1 (h2 i hin)).1⟩, fun i hin => ((key _ _).1 (h2 i hin)).2⟩
  · rintro ⟨⟨h1, h2⟩, h3⟩
    exact ⟨h1, fun i hin => (key _ _).2 ⟨h2 i hin, h3 i hin⟩⟩

/-- A complex element read through `get_element` is `0.0` (src/array/dtype/complex128.rs:411-414). -/
def cpxToFlt (_ : Cpx ℚ) : Flt ℚ := .num 0

/-- C69: `isclose` and `allclose` of complex arrays are true whatever the elements; `array_equal` of
string arrays is true whatever the strings. -/
theorem C69_close_counterexample :
    allclose (1 / 100000) (1 / 100000000) false cpxToFlt cpxToFlt ⟨fun _ => ⟨1, 2⟩, View.fresh [1] 16⟩
      ⟨fun _ => ⟨7, 0⟩, View.fresh [1] 16⟩ = some true ∧
    arrayEqual false (cmpFlt .eq) true true strToFlt strToFlt 4 (.num 0) ⟨fun _ => ['a'], View.fresh [1] 4⟩
      ⟨fun _ => ['b'], View.fresh [1] 4⟩ = true := by
  decide +kernel

/-- The tolerance is relative to the second operand. -/
example : isclose (1 / 2) 0 false id id ⟨fun p => if p = 0 then .num (1 : ℚ) else if p = 8 then .num 2 else .nan, View.fresh [3] 8⟩
    ⟨fun p => if p = 0 then .num 2 else if p = 8 then .num 1 else .nan, View.fresh [3] 8⟩ = some ⟨[3], [true, false, false]⟩ := by
  decide +kernel

example : arrayEqual true (cmpFlt .eq) true true id id 8 (.num 0) ⟨fun p => .num (p : ℚ), View.fresh [2] 8⟩
      ⟨fun p => .num (8 - p : ℚ), ⟨8, [2], [-8], 8, false, false⟩⟩ = true ∧
    arrayEqual true (cmpFlt .eq) true true id id 8 (.num 0) ⟨fun p => .num (p : ℚ), View.fresh [2] 8⟩
      ⟨fun p => .num (p : ℚ), View.fresh [2, 1] 8⟩ = false := by
  decide +kernel

end Props
