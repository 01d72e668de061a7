import Verif.Lemmas.Reduce
import Verif.Lemmas.Float
import Mathlib.Data.BitVec
import Mathlib.Order.WithBot
/-!
# C16, C17, C18, C56: reductions
-/

namespace Props
open Spec Rumpy

/-! ### C16 full reductions -/

/-- C16: for an associative and commutative operation with identity, a full reduction is the plain
left-to-right combination of all elements in row-major order, for every shape, size and layout. -/
theorem C16_reduce_all {α : Type} (op : α → α → α) (e : α) (assoc : ∀ a b c, op (op a b) c = op a (op b c))
    (comm : ∀ a b, op a b = op b a) (ident : ∀ a, op e a = a) (mem : Int → α) (v : View) (hw : v.WF) :
    reduceAll op e mem v = (v.denote mem).toList.foldl op e :=
  reduceAll_eq (Kernel.of_laws assoc comm ident) mem hw

/-- C16: the sum of an integer array is the sum of the element values modulo `2^w`. -/
theorem C16_sum (mem : Int → BitVec w) (v : View) (hw : v.WF) :
    reduceAll sumCombine 0#w mem v = BitVec.ofInt w ((v.denote mem).toList.map BitVec.toInt).sum := by
  rw [C16_reduce_all sumCombine _ (fun a b c => BitVec.add_assoc a b c) (fun a b => BitVec.add_comm a b)
    (fun a => BitVec.zero_add a) mem v hw]
  suffices h : ∀ (l : List (BitVec w)) (a : BitVec w),
      l.foldl sumCombine a = a + BitVec.ofInt w (l.map BitVec.toInt).sum by simp [h]
  intro l
  induction l with
  | nil => simp
  | cons x l ih =>
    intro a
    rw [List.foldl_cons, ih]
    simp [sumCombine, BitVec.ofInt_add, BitVec.add_assoc]

/-- C16: the product of an integer array is the product of the element values modulo `2^w`. -/
theorem C16_prod (mem : Int → BitVec w) (v : View) (hw : v.WF) :
    reduceAll prodCombine 1#w mem v = BitVec.ofInt w ((v.denote mem).toList.map BitVec.toInt).prod := by
  rw [C16_reduce_all prodCombine _ (fun a b c => BitVec.mul_assoc a b c) (fun a b => BitVec.mul_comm a b)
    (fun a => BitVec.one_mul a) mem v hw]
  suffices h : ∀ (l : List (BitVec w)) (a : BitVec w),
      l.foldl prodCombine a = a * BitVec.ofInt w (l.map BitVec.toInt).prod by
    rw [h]; exact BitVec.one_mul _
  intro l
  induction l with
  | nil => intro a; simp only [List.foldl_nil, List.map_nil, List.prod_nil]; exact (BitVec.mul_one a).symm
  | cons x l ih =>
    intro a
    rw [List.foldl_cons, ih]
    simp [prodCombine, BitVec.ofInt_mul, BitVec.mul_assoc]

theorem maxCombine_kernel {α κ : Type} [LinearOrder κ] (key : α → κ) (hk : Function.Injective key) (e : α)
    (he : ∀ a, key e ≤ key a) : Kernel (maxCombine key) e := by
  have hm : ∀ a b, key (maxCombine key a b) = max (key a) (key b) := by
    intro a b
    unfold maxCombine
    split
    · next h => exact (max_eq_right h.le).symm
    · next h => exact (max_eq_left (not_lt.1 h)).symm
  apply Kernel.of_laws
  · intro a b c; apply hk; simp only [hm, max_assoc]
  · intro a b; apply hk; simp only [hm, max_comm]
  · intro a; apply hk; rw [hm, max_eq_right (he a)]

theorem minCombine_kernel {α κ : Type} [LinearOrder κ] (key : α → κ) (hk : Function.Injective key) (e : α)
    (he : ∀ a, key a ≤ key e) : Kernel (minCombine key) e := by
  have hm : ∀ a b, key (minCombine key a b) = min (key a) (key b) := by
    intro a b
    unfold minCombine
    split
    · next h => exact (min_eq_right h.le).symm
    · next h => exact (min_eq_left (not_lt.1 h)).symm
  apply Kernel.of_laws
  · intro a b c; apply hk; simp only [hm, min_assoc]
  · intro a b; apply hk; simp only [hm, min_comm]
  · intro a; apply hk; rw [hm, min_eq_right (he a)]

theorem foldl_max {α κ : Type} [LinearOrder κ] (key : α → κ) : ∀ (l : List α) (e : α),
    (l.foldl (maxCombine key) e = e ∨ l.foldl (maxCombine key) e ∈ l) ∧
      key e ≤ key (l.foldl (maxCombine key) e) ∧ ∀ x ∈ l, key x ≤ key (l.foldl (maxCombine key) e)
  | [], e => by simp
  | y :: l, e => by
    obtain ⟨h1, h2, h3⟩ := foldl_max key l (maxCombine key e y)
    rw [List.foldl_cons]
    have h4 : key e ≤ key (maxCombine key e y) ∧ key y ≤ key (maxCombine key e y) ∧
        (maxCombine key e y = e ∨ maxCombine key e y = y) := by
      unfold maxCombine
      split
      · next h => exact ⟨h.le, le_refl _, Or.inr rfl⟩
      · next h => exact ⟨le_refl _, not_lt.1 h, Or.inl rfl⟩
    refine ⟨?_, h4.1.trans h2, ?_⟩
    · rcases h1 with h1 | h1
      · rw [h1]
        rcases h4.2.2 with h | h
        · exact Or.inl h
        · rw [h]; simp
      · exact Or.inr (List.mem_cons_of_mem _ h1)
    · intro x hx
      rcases List.mem_cons.1 hx with rfl | hx
      · exact h4.2.1.trans h2
      · exact h3 x hx

theorem foldl_min {α κ : Type} [LinearOrder κ] (key : α → κ) : ∀ (l : List α) (e : α),
    (l.foldl (minCombine key) e = e ∨ l.foldl (minCombine key) e ∈ l) ∧
      key (l.foldl (minCombine key) e) ≤ key e ∧ ∀ x ∈ l, key (l.foldl (minCombine key) e) ≤ key x
  | [], e => by simp
  | y :: l, e => by
    obtain ⟨h1, h2, h3⟩ := foldl_min key l (minCombine key e y)
    rw [List.foldl_cons]
    have h4 : key (minCombine key e y) ≤ key e ∧ key (minCombine key e y) ≤ key y ∧
        (minCombine key e y = e ∨ minCombine key e y = y) := by
      unfold minCombine
      split
      · next h => exact ⟨h.le, le_refl _, Or.inr rfl⟩
      · next h => exact ⟨le_refl _, not_lt.1 h, Or.inl rfl⟩
    refine ⟨?_, h2.trans h4.1, ?_⟩
    · rcases h1 with h1 | h1
      · rw [h1]
        rcases h4.2.2 with h | h
        · exact Or.inl h
        · rw [h]; simp
      · exact Or.inr (List.mem_cons_of_mem _ h1)
    · intro x hx
      rcases List.mem_cons.1 hx with rfl | hx
      · exact h2.trans h4.2.1
      · exact h3 x hx

/-- C16: `max` of a non-empty integer array is an element of it and no element is larger, for both
signed (`key = toInt`) and unsigned (`key = toNat`) elements. -/
theorem C16_max {α κ : Type} [LinearOrder κ] (key : α → κ) (hk : Function.Injective key) (e : α)
    (he : ∀ a, key e ≤ key a) (mem : Int → α) (v : View) (hw : v.WF) (hne : size v.shape ≠ 0) :
    reduceAll (maxCombine key) e mem v ∈ (v.denote mem).toList ∧
      ∀ x ∈ (v.denote mem).toList, key x ≤ key (reduceAll (maxCombine key) e mem v) := by
  rw [reduceAll_eq (maxCombine_kernel key hk e he) mem hw]
  obtain ⟨h1, h2, h3⟩ := foldl_max key (v.denote mem).toList e
  refine ⟨?_, h3⟩
  rcases h1 with h1 | h1
  · have hl : (v.denote mem).toList ≠ [] := by
      intro h
      have := congrArg List.length h
      rw [Nd.toList, List.length_map, length_indices] at this
      exact hne this
    obtain ⟨x, hx⟩ := List.exists_mem_of_ne_nil _ hl
    have : x = e := hk (le_antisymm (h1 ▸ h3 x hx) (he x))
    rw [h1, ← this]; exact hx
  · exact h1

/-- C16: likewise `min`. -/
theorem C16_min {α κ : Type} [LinearOrder κ] (key : α → κ) (hk : Function.Injective key) (e : α)
    (he : ∀ a, key a ≤ key e) (mem : Int → α) (v : View) (hw : v.WF) (hne : size v.shape ≠ 0) :
    reduceAll (minCombine key) e mem v ∈ (v.denote mem).toList ∧
      ∀ x ∈ (v.denote mem).toList, key (reduceAll (minCombine key) e mem v) ≤ key x := by
  rw [reduceAll_eq (minCombine_kernel key hk e he) mem hw]
  obtain ⟨h1, h2, h3⟩ := foldl_min key (v.denote mem).toList e
  refine ⟨?_, h3⟩
  rcases h1 with h1 | h1
  · have hl : (v.denote mem).toList ≠ [] := by
      intro h
      have := congrArg List.length h
      rw [Nd.toList, List.length_map, length_indices] at this
      exact hne this
    obtain ⟨x, hx⟩ := List.exists_mem_of_ne_nil _ hl
    have : x = e := hk (le_antisymm (he x) (h1 ▸ h3 x hx))
    rw [h1, ← this]; exact hx
  · exact h1

/-- The signed and unsigned orders satisfy the hypotheses of `C16_max` and `C16_min` with the
library's initial values. -/
example : Function.Injective (BitVec.toInt : BitVec 64 → Int) ∧
    (∀ a : BitVec 64, (BitVec.intMin 64).toInt ≤ a.toInt) ∧ (∀ a : BitVec 64, a.toInt ≤ (BitVec.intMax 64).toInt) ∧
    Function.Injective (BitVec.toNat : BitVec 64 → Nat) ∧ (∀ a : BitVec 64, (0#64).toNat ≤ a.toNat) ∧
    (∀ a : BitVec 64, a.toNat ≤ (BitVec.allOnes 64).toNat) := by
  refine ⟨fun a b h => BitVec.eq_of_toInt_eq h, fun a => ?_, fun a => ?_, fun a b h => BitVec.eq_of_toNat_eq h,
    fun a => by simp, fun a => ?_⟩
  · have := BitVec.le_toInt a
    rw [show (BitVec.intMin 64).toInt = -2 ^ 63 by decide]
    simpa using this
  · have := BitVec.toInt_lt (x := a)
    rw [show (BitVec.intMax 64).toInt = 2 ^ 63 - 1 by decide]
    norm_num at this ⊢
    omega
  · rw [show (BitVec.allOnes 64).toNat = 2 ^ 64 - 1 by decide]
    have := a.isLt
    omega

/-- Twenty elements through the eight-way loop, in reverse order. -/
example : reduceAll sumCombine 0#8 (fun p => BitVec.ofInt 8 p) ⟨19, [20], [-1], 1, false, false⟩ = 190#8 := by
  decide +kernel

/-- C16 (partial): the value handed to Python for a 64-bit signed array is the exact reduction
while its magnitude is at most `2^53`. Missing: larger results, which are rounded to a 53-bit
float, see the counterexample. -/
theorem C16_value_i64_partial (op : BitVec 64 → BitVec 64 → BitVec 64) (e : BitVec 64)
    (assoc : ∀ a b c, op (op a b) c = op a (op b c)) (comm : ∀ a b, op a b = op b a) (ident : ∀ a, op e a = a)
    (mem : Int → BitVec 64) (v : View) (hw : v.WF)
    (h : ((v.denote mem).toList.foldl op e).toInt.natAbs ≤ 2 ^ 53) :
    reduceAllI64 op e mem v = ((v.denote mem).toList.foldl op e).toInt := by
  have hr := C16_reduce_all op e assoc comm ident mem v hw
  unfold reduceAllI64
  cases ht : reduceTyped op e mem v with
  | some x =>
    have hx := reduceTyped_eq (Kernel.of_laws assoc comm ident) mem hw ht
    rw [← hx] at h ⊢
    dsimp only
    rw [viaF64_exact h, intToF64_exact h]
  | none =>
    dsimp only
    rw [hr, intToF64_exact h]

/-- C16: the sum of the int64 array `[2^53, 1]` is reported as `2^53`. -/
theorem C16_value_i64_counterexample :
    reduceAllI64 sumCombine 0#64 (fun p => if p = 0 then BitVec.ofNat 64 (2 ^ 53) else 1#64) (View.fresh [2] 8)
      = 2 ^ 53 := by
  decide +kernel

/-! ### C17 2-norm -/

/-- C17 (partial): for fewer than eight elements, contiguous or one-dimensional, the accumulated
value is the sum of the squares (over any commutative ring, so apart from rounding). Missing: eight
or more elements, and n-d strided arrays, which are wrong. -/
theorem C17_sum_of_squares_partial [CommRing R] (mem : Int → R) (v : View) (hw : v.WF)
    (hn : size v.shape < 8) (hl : v.cFlag = true ∨ v.shape.length ≤ 1) :
    sumOfSquares mem v = ((v.denote mem).toList.map fun x => x * x).sum := by
  have hsum : ∀ (l : List R) (a : R), l.foldl sumSqCombine a = a + (l.map fun x => x * x).sum := by
    intro l
    induction l with
    | nil => simp
    | cons x l ih => intro a; rw [List.foldl_cons, ih]; simp [sumSqCombine, add_assoc]
  have key : ∀ d : Nat → R, reduce8 sumSqCombine 0 d (size v.shape) =
      (List.range (size v.shape)).foldl (fun acc i => sumSqCombine acc (d i)) 0 := by
    intro d
    unfold reduce8
    split
    · next h => simp [h]
    · rfl
  have hfold : ((v.denote mem).toList.map fun x => x * x).sum =
      (indices v.shape).foldl (fun acc i => sumSqCombine acc ((v.denote mem).get i)) 0 := by
    rw [← List.foldl_map (f := (v.denote mem).get) (g := sumSqCombine)]
    have := hsum (v.denote mem).toList 0
    rw [zero_add] at this
    rw [← this]
    rfl
  unfold sumOfSquares reduceTyped
  dsimp only
  rw [sizeOf_eq, hfold]
  split
  · next h0 =>
    have : indices v.shape = [] := List.eq_nil_of_length_eq_zero (by rw [length_indices, h0])
    simp [this]
  · split
    · next hc =>
      rw [Option.getD_some, key]
      exact foldl_range_size _ _ fun idx hi => by simp only [View.denote, cFlag_addr hw hc hi]
    · next hc =>
      have hl : v.shape.length ≤ 1 := hl.resolve_left hc
      rw [if_pos hl, Option.getD_some, key]
      exact foldl_range_size _ _ fun idx hi => by simp only [View.denote, stride1_addr hw hl hi]

/-- C17: eight elements equal to `2` have sum of squares `32`; the library accumulates `176820`,
because the partial sums are squared again when they are combined. -/
theorem C17_eight_elements_counterexample :
    sumOfSquares (fun _ => (2 : Int)) (View.fresh [8] 8) = 176820 ∧
      (((View.fresh [8] 8).denote (fun _ => (2 : Int))).toList.map fun x => x * x).sum = 32 := by
  decide

/-- C17: a transposed 2-d array has norm 0. -/
theorem C17_strided_counterexample :
    sumOfSquares (fun _ => (2 : Int)) ⟨0, [2, 3], [8, 16], 8, false, true⟩ = 0 := by
  decide

/-- C17: the squares are accumulated in the array's own integer type: the int8 array `[16]` has
sum of squares 0. -/
theorem C17_small_int_counterexample : sumOfSquares (fun _ => 16#8) (View.fresh [1] 1) = 0#8 := by
  decide

/-- C17: for a complex array the square, not the squared modulus, is accumulated: `[i]` gives `-1`. -/
theorem C17_complex_counterexample : sumOfSquaresCx (fun _ => ⟨0, 1⟩) (View.fresh [1] 16) = -1 := by
  decide

/-! ### C18 reductions along an axis -/

/-- The lane through `idx` along `axis`, combined from the left. -/
def axisReduce (op : α → α → α) (e : α) (a : Nd α) (axis : Nat) : Nd α :=
  { shape := a.shape.eraseIdx axis
    get := fun idx => ((List.range (a.shape.getD axis 0)).map fun j => a.get (idx.insertIdx axis j)).foldl op e }

/-- C18 (partial): along an axis, each remaining index holds the reduction of its lane, in row-major
order, on all three code paths; an empty lane holds the identity. Missing: the result of a 1-d
array has shape `(1,)` instead of `()`. -/
theorem C18_reduce_axis_partial {α : Type} (op : α → α → α) (e : α) (assoc : ∀ a b c, op (op a b) c = op a (op b c))
    (comm : ∀ a b, op a b = op b a) (ident : ∀ a, op e a = a) (mem : Int → α) (v : View) (hw : v.WF)
    (axis : Nat) (hax : axis < v.shape.length) (zero : α) :
    let r := reduceAxis op e mem v axis zero
    r.data = (axisReduce op e (v.denote mem) axis).toList ∧
    (2 ≤ v.shape.length → r.shape = v.shape.eraseIdx axis) ∧ (v.shape.length = 1 → r.shape = [1]) := by
  intro r
  refine ⟨?_, ?_, ?_⟩
  · rw [reduceAxis_data (Kernel.of_laws assoc comm ident) mem hw hax]
    apply List.map_congr_left
    intro idx _
    simp only [laneFold, axisReduce, List.foldl_map, View.denote]
  · intro h
    rw [reduceAxis_shape, if_neg]
    intro he
    have := congrArg List.length (List.isEmpty_iff.1 he)
    rw [List.length_eraseIdx, if_pos hax] at this
    simp at this
    omega
  · intro h
    rw [reduceAxis_shape, if_pos]
    rw [List.isEmpty_iff, ← List.length_eq_zero_iff, List.length_eraseIdx, if_pos hax]
    omega

/-- C18: for two or more dimensions the result is exactly the lane-wise reduction. -/
theorem C18_reduce_axis {α : Type} (op : α → α → α) (e : α) (assoc : ∀ a b c, op (op a b) c = op a (op b c))
    (comm : ∀ a b, op a b = op b a) (ident : ∀ a, op e a = a) (mem : Int → α) (v : View) (hw : v.WF)
    (axis : Nat) (hax : axis < v.shape.length) (h2 : 2 ≤ v.shape.length) (zero : α) :
    (reduceAxis op e mem v axis zero).Is (axisReduce op e (v.denote mem) axis) := by
  obtain ⟨h, h', -⟩ := C18_reduce_axis_partial op e assoc comm ident mem v hw axis hax zero
  exact ⟨h' h2, h⟩

/-- C18: arrays that look the same have the same axis reductions, whatever their layout. -/
theorem C18_layout_independent {α : Type} (op : α → α → α) (e : α) (assoc : ∀ a b c, op (op a b) c = op a (op b c))
    (comm : ∀ a b, op a b = op b a) (ident : ∀ a, op e a = a) (mem mem' : Int → α) (v v' : View) (hw : v.WF)
    (hw' : v'.WF) (hs : (v.denote mem).Same (v'.denote mem')) (axis : Nat) (hax : axis < v.shape.length) (zero : α) :
    reduceAxis op e mem v axis zero = reduceAxis op e mem' v' axis zero := by
  have hsh : v.shape = v'.shape := hs.1
  have h1 := (C18_reduce_axis_partial op e assoc comm ident mem v hw axis hax zero).1
  have h2 := (C18_reduce_axis_partial op e assoc comm ident mem' v' hw' axis (hsh ▸ hax) zero).1
  have h3 := reduceAxis_shape op e mem v axis zero
  have h4 := reduceAxis_shape op e mem' v' axis zero
  have hd : (reduceAxis op e mem v axis zero).data = (reduceAxis op e mem' v' axis zero).data := by
    rw [h1, h2]
    unfold Nd.toList axisReduce
    dsimp only
    rw [← hs.1]
    apply List.map_congr_left
    intro idx hi
    congr 1
    apply List.map_congr_left
    intro j hj
    apply hs.2
    have hi := mem_indices.1 hi
    have hj := List.mem_range.1 hj
    exact inShape_insertIdx hax hi hj
  rw [← hsh] at h4
  generalize reduceAxis op e mem v axis zero = r at *
  generalize reduceAxis op e mem' v' axis zero = r' at *
  cases r; cases r'
  simp_all

/-- C18: reducing the 1-d array of length 3 gives shape `(1,)`, not `()`. -/
theorem C18_shape_counterexample :
    (reduceAxis sumCombine 0#8 (fun p => BitVec.ofInt 8 p) (View.fresh [3] 1) 0 0).shape = [1] := by decide

/-- C18 (partial): the loops for the other dtypes (bool, datetime) also fold every lane, for any
`combine`, when the axis is not empty. Missing: an empty axis, see the counterexample. -/
theorem C18_fallback_partial (op : α → α → α) (e : α) (mem : Int → α) (v : View) (hw : v.WF)
    (axis : Nat) (hax : axis < v.shape.length) (hn : v.shape.getD axis 0 ≠ 0) (zero : α) :
    (reduceAxisFallback op e mem v axis zero).data = (axisReduce op e (v.denote mem) axis).toList := by
  rw [reduceAxisFallback_eq op e mem hw hax hn]
  apply List.map_congr_left
  intro idx _
  simp only [laneFold, axisReduce, List.foldl_map, View.denote]

/-- C18: the product of a bool array along an empty axis is `False`; the identity is `True`. -/
theorem C18_fallback_counterexample :
    (reduceAxisFallback (· && ·) true (fun _ => false) (View.fresh [0, 2] 1) 0 false).data = [false, false] ∧
      (axisReduce (· && ·) true ((View.fresh [0, 2] 1).denote fun _ => false) 0).toList = [true, true] := by
  decide

/-- All three paths: the contiguous axis, the row accumulation and a strided axis. -/
example : reduceAxis sumCombine 0#8 (fun p => BitVec.ofInt 8 p) (View.fresh [2, 3] 1) 1 0 = ⟨[2], [3#8, 12#8]⟩ ∧
    reduceAxis sumCombine 0#8 (fun p => BitVec.ofInt 8 p) (View.fresh [2, 3] 1) 0 0 = ⟨[3], [3#8, 5#8, 7#8]⟩ ∧
    reduceAxis sumCombine 0#8 (fun p => BitVec.ofInt 8 p) ⟨2, [2, 2], [3, -2], 1, false, false⟩ 1 0
      = ⟨[2], [2#8, 8#8]⟩ := by
  decide

/-! ### C56 NaN-skipping reductions -/

theorem nanCombine_kernel {α : Type} {op : α → α → α} {e : α} (assoc : ∀ a b c, op (op a b) c = op a (op b c))
    (comm : ∀ a b, op a b = op b a) (ident : ∀ a, op e a = a) : Kernel (nanCombine op) (some e) := by
  refine ⟨α, { mul := op, one := e, mul_assoc := assoc, one_mul := ident,
               mul_one := fun a => by show op a e = a; rw [comm]; exact ident a, mul_comm := comm },
    some, fun v => v.getD e, rfl, fun _ => rfl, ?_⟩
  intro m v
  cases v with
  | none => show some m = some (op m e); rw [comm, ident]
  | some x => rfl

theorem foldl_nanCombine (op : α → α → α) : ∀ (l : List (Option α)) (a : α),
    l.foldl (nanCombine op) (some a) = some ((l.filterMap id).foldl op a)
  | [], a => rfl
  | none :: l, a => by simp [nanCombine, foldl_nanCombine op l a]
  | some x :: l, a => by simp [nanCombine, foldl_nanCombine op l (op a x)]

theorem nanReduceFull_eq (op : α → α → α) (e : α) (mem : Int → Option α) {v : View} (hw : v.WF) :
    nanReduceFull op e mem v = (((v.denote mem).toList.filterMap id).foldl op e,
      (v.denote mem).toList.any Option.isSome) := by
  unfold nanReduceFull
  rw [sizeOf_eq]
  split
  · next h0 =>
    have : indices v.shape = [] := List.eq_nil_of_length_eq_zero (by rw [length_indices, h0])
    simp [Nd.toList, View.denote, this]
  · rw [← addrs_map hw]
    have : ∀ (l : List Int) (a : α) (b : Bool), l.foldl (fun acc p =>
        match mem p with
        | some x => (op acc.1 x, true)
        | none => acc) (a, b) = (((l.map mem).filterMap id).foldl op a, b || (l.map mem).any Option.isSome) := by
      intro l
      induction l with
      | nil => simp
      | cons p l ih =>
        intro a b
        rw [List.foldl_cons]
        cases h : mem p with
        | none => simp [ih, h]
        | some x => simp [ih, h]
    exact (this v.addrs e false).trans (by simp)

/-- C56: `nansum` and `nanprod` are the plain reduction of the elements that are not NaN, for every
size and layout (over any commutative monoid of numbers). -/
theorem C56_nan_reduce {α : Type} (op : α → α → α) (e : α) (assoc : ∀ a b c, op (op a b) c = op a (op b c))
    (comm : ∀ a b, op a b = op b a) (ident : ∀ a, op e a = a) (mem : Int → Option α) (v : View) (hw : v.WF) :
    nanReduce op e mem v = some (((v.denote mem).toList.filterMap id).foldl op e) := by
  unfold nanReduce
  cases h : reduceTyped (nanCombine op) (some e) mem v with
  | some x =>
    dsimp only
    rw [reduceTyped_eq (nanCombine_kernel assoc comm ident) mem hw h, foldl_nanCombine]
  | none => dsimp only; rw [nanReduceFull_eq op e mem hw]

/-- C56 (partial): `nanmax` is the largest of the elements that are not NaN, when that is not the
initial value `-inf`, and NaN when every element is NaN. Missing: an array whose largest number is
`-inf`, see the counterexample. `nanmin` is the same statement for the reverse order. -/
theorem C56_nanmax_partial {α : Type} [LinearOrder α] [OrderBot α] (mem : Int → Option α) (v : View) (hw : v.WF) :
    ((∀ x ∈ (v.denote mem).toList, x = none) → nanExtreme (maxCombine id) ⊥ mem v = none) ∧
    ((∃ x ∈ (v.denote mem).toList, ∃ y, x = some y ∧ y ≠ ⊥) →
      ∃ m, nanExtreme (maxCombine id) ⊥ mem v = some m ∧ some m ∈ (v.denote mem).toList ∧
        ∀ y, some y ∈ (v.denote mem).toList → y ≤ m) := by
  have kern : Kernel (nanCombine (maxCombine (id : α → α))) (some ⊥) := by
    have hm : ∀ a b : α, maxCombine id a b = max a b := by
      intro a b
      unfold maxCombine
      simp only [id]
      split
      · next h => exact (max_eq_right h.le).symm
      · next h => exact (max_eq_left (not_lt.1 h)).symm
    apply nanCombine_kernel
    · intro a b c; simp only [hm, max_assoc]
    · intro a b; simp only [hm, max_comm]
    · intro a; rw [hm, max_eq_right bot_le]
  have hmem : ∀ y, some y ∈ (v.denote mem).toList ↔ y ∈ (v.denote mem).toList.filterMap id := by
    intro y; simp [List.mem_filterMap]
  obtain ⟨h1, h2, h3⟩ := foldl_max (id : α → α) ((v.denote mem).toList.filterMap id) ⊥
  have hne : (∃ x ∈ (v.denote mem).toList, ∃ y, x = some y ∧ y ≠ ⊥) →
      ((v.denote mem).toList.filterMap id).foldl (maxCombine id) ⊥ ≠ ⊥ ∧
      (((v.denote mem).toList.filterMap id).foldl (maxCombine id) ⊥) ∈ (v.denote mem).toList.filterMap id := by
    rintro ⟨x, hx, y, rfl, hy⟩
    have := h3 y ((hmem y).1 hx)
    have hb : ((v.denote mem).toList.filterMap id).foldl (maxCombine id) ⊥ ≠ ⊥ := by
      intro hb
      rw [hb] at this
      exact hy (le_antisymm this bot_le)
    exact ⟨hb, h1.resolve_left hb⟩
  unfold nanExtreme
  cases h : reduceTyped (nanCombine (maxCombine id)) (some ⊥) mem v with
  | some x =>
    dsimp only
    rw [reduceTyped_eq kern mem hw h, foldl_nanCombine]
    constructor
    · intro hall
      have : (v.denote mem).toList.filterMap id = [] := by
        rw [List.filterMap_eq_nil_iff]; exact hall
      rw [this]
      simp
    · intro hex
      obtain ⟨hb, hm⟩ := hne hex
      rw [if_neg (by simpa using hb)]
      exact ⟨_, rfl, (hmem _).2 hm, fun y hy => h3 y ((hmem y).1 hy)⟩
  | none =>
    dsimp only
    rw [nanReduceFull_eq _ _ mem hw]
    constructor
    · intro hall
      rw [if_neg]
      simp only [Bool.not_eq_true, List.any_eq_false]
      intro x hx
      simp [hall x hx]
    · intro hex
      obtain ⟨hb, hm⟩ := hne hex
      rw [if_pos]
      · exact ⟨_, rfl, (hmem _).2 hm, fun y hy => h3 y ((hmem y).1 hy)⟩
      · obtain ⟨x, hx, y, rfl, -⟩ := hex
        exact List.any_eq_true.2 ⟨_, hx, rfl⟩

/-- C56: `nanmax([-inf])` is NaN. -/
theorem C56_nanmax_counterexample :
    nanExtreme (maxCombine id) ⊥ (fun _ => some (⊥ : WithBot Int)) (View.fresh [1] 8) = none := by
  decide

example : nanReduce (· + ·) 0 (fun p => if p % 16 = 0 then none else some p) (View.fresh [9] 8) = some (8 + 24 + 40 + 56 : Int) := by
  decide

end Props
