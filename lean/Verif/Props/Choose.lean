import Verif.Spec.Copyto
import Verif.Model.Choose
import Verif.Props.Assign
import Verif.Props.Bitwise
import Verif.Props.Elementwise
/-!
# C101: `where` and `choose` with operands of different dtypes
-/

namespace Props
open Spec Rumpy

theorem isTruthy_iff {c : DType} (hc : c.Numeric) {x : Elem} (hx : x.OfType c) : isTruthy x = true ↔ x.Truthy := by
  have hz : ∀ u : Flt ℚ, fltEq u (.num 0) = true ↔ u = .num 0 := by
    intro u
    cases u <;> simp [fltEq]
  unfold Elem.Truthy
  cases x with
  | bool b => cases b <;> simp [isTruthy, Elem.number]
  | int n => simp [isTruthy, Elem.number]
  | flt u =>
    cases u <;> simp [isTruthy, Elem.number, fltEq]
  | cpx u v =>
    cases u <;> cases v <;> simp [isTruthy, Elem.number, fltEq, or_iff_not_imp_left]
  | text s => cases c <;> first | exact hc.elim | exact hx.elim

theorem whereFallback_eq {a b : DType} {c x y : Held Elem} (hc : c.view.WF) (hx : x.view.WF) (hy : y.view.WF) {cx out : List Nat}
    (h1 : IsBroadcast c.view.shape x.view.shape cx) (h2 : IsBroadcast cx y.view.shape out) :
    whereFallback a b c x y = some (promote a b, ⟨out, (indices out).map fun i =>
      (if a = b ∧ a = promote a b then whereCopy else whereElem (promote a b)) ((c.nd.broadcast out).get i) ((x.nd.broadcast out).get i)
        ((y.nd.broadcast out).get i)⟩) := by
  have h1 := broadcastShapes_iff.2 h1
  have h2 := broadcastShapes_iff.2 h2
  obtain ⟨c', x', y', ec, ex, ey⟩ := where_views hc hx hy h1 h2
  have hmap : ∀ f : Elem → Elem → Elem → Elem, ((indices out).map fun i => f (c.mem (c'.addr i)) (x.mem (x'.addr i)) (y.mem (y'.addr i))) =
      (indices out).map fun i => f ((c.nd.broadcast out).get i) ((x.nd.broadcast out).get i) ((y.nd.broadcast out).get i) := by
    intro f
    refine List.map_congr_left fun i hi => ?_
    have hi := mem_indices.1 hi
    rw [denote_broadcast c.mem hc ec hi, denote_broadcast x.mem hx ex hi, denote_broadcast y.mem hy ey hi]
    rfl
  unfold whereFallback
  simp only [h1, h2, ec, ex, ey, Option.bind_eq_bind, Option.bind_some]
  by_cases h0 : Rumpy.sizeOf out = 0
  · rw [if_pos h0]
    have : indices out = [] := List.eq_nil_of_length_eq_zero (by rw [length_indices, ← sizeOf_eq, h0])
    rw [this, h0]
    rfl
  rw [if_neg h0]
  by_cases hab : a = b ∧ a = promote a b
  · rw [if_pos hab, if_pos hab, writes_odometer out (fun i => whereCopy (c.mem (c'.addr i)) (x.mem (x'.addr i)) (y.mem (y'.addr i))) _
      (by rw [List.length_replicate, sizeOf_eq]), hmap]
  · rw [if_neg hab, if_neg hab, writes_odometer out (fun i => whereElem (promote a b) (c.mem (c'.addr i)) (x.mem (x'.addr i)) (y.mem (y'.addr i))) _
      (by rw [List.length_replicate, sizeOf_eq]), hmap]

/-- C101: `where` with operands of any dtypes succeeds exactly when the three shapes can be broadcast together. -/
theorem C101_where_succeeds_iff (a b : DType) (c x y : Held Elem) (hc : c.view.WF) (hx : x.view.WF) (hy : y.view.WF) :
    (whereFallback a b c x y).isSome ↔ ∃ cx out, IsBroadcast c.view.shape x.view.shape cx ∧ IsBroadcast cx y.view.shape out := by
  constructor
  · intro h
    unfold whereFallback at h
    cases h1 : broadcastShapes c.view.shape x.view.shape with
    | none => simp [h1] at h
    | some cx =>
      cases h2 : broadcastShapes cx y.view.shape with
      | none => simp [h1, h2] at h
      | some out => exact ⟨cx, out, broadcastShapes_iff.1 h1, broadcastShapes_iff.1 h2⟩
  · rintro ⟨cx, out, h1, h2⟩
    rw [whereFallback_eq hc hx hy h1 h2]
    rfl

theorem accepts_range {a r : DType} (ha : a.Real) (h : Accepts a r) {n : Int} (hx : (Elem.int n).OfType a) {lo hi : Int}
    (hr : r.intRange = some (lo, hi)) : lo ≤ n ∧ n ≤ hi := by
  rcases h with h | ⟨-, rfl | rfl⟩
  · have := h _ (holds_of_ofType ha hx rfl)
    cases r <;> cases hr
    all_goals
      first
      | exact this.elim
      | obtain ⟨⟨m, h1, h2, h3⟩, -⟩ := this
        obtain rfl : n = m := Int.cast_injective (α := ℚ) h3
        exact ⟨h1, h2⟩
  · cases hr
  · cases hr

/-- C101 (partial): the result of `where` with real operands of two dtypes has the joint dtype, the joint shape, and at each place the
element of `x` where the condition is true and of `y` where it is false, converted to the joint dtype; integers up to 2^53.
Missing: larger integers and complex operands, see the counterexamples. -/
theorem C101_where_partial {a b d : DType} (hab : a ≠ b) (ha : a.Real) (hb : b.Real) (hd : d.Numeric) {c x y : Held Elem} (hc : c.view.WF)
    (hx : x.view.WF) (hy : y.view.WF) (tc : Typed d c) (tx : Typed a x) (ty : Typed b y)
    (sx : ∀ i n, InShape x.view.shape i → x.nd.get i = .int n → n.natAbs ≤ 2 ^ 53)
    (sy : ∀ i n, InShape y.view.shape i → y.nd.get i = .int n → n.natAbs ≤ 2 ^ 53) {cx out : List Nat}
    (h1 : IsBroadcast c.view.shape x.view.shape cx) (h2 : IsBroadcast cx y.view.shape out) :
    ∃ r, whereFallback a b c x y = some (promote a b, r) ∧ r.shape = out ∧ ∀ i, InShape out i → ∃ z, r.at? i = some z ∧
      (((c.nd.broadcast out).get i).Truthy → Converts (promote a b) ((x.nd.broadcast out).get i) z) ∧
      (¬ ((c.nd.broadcast out).get i).Truthy → Converts (promote a b) ((y.nd.broadcast out).get i) z) := by
  rw [whereFallback_eq hc hx hy h1 h2, if_neg (fun h => hab h.1)]
  refine ⟨_, rfl, rfl, fun i hi => ⟨_, Arr.Is.at? (nd := ⟨out, fun i => whereElem (promote a b) ((c.nd.broadcast out).get i)
    ((x.nd.broadcast out).get i) ((y.nd.broadcast out).get i)⟩) ⟨rfl, rfl⟩ hi, ?_⟩⟩
  obtain ⟨b1, b2⟩ := broadcastsTo_of h1
  obtain ⟨b3, b4⟩ := broadcastsTo_of h2
  have tr : ∀ {s : List Nat}, BroadcastsTo s cx → BroadcastsTo s out := fun {s} h => by
    refine ⟨by have := h.1; have := b3.1; omega, fun k hk => ?_⟩
    have := h.1
    rcases h.2 k hk with h' | h'
    · exact Or.inl h'
    · rcases b3.2 k (by omega) with h'' | h''
      · left; rw [h', h'']
      · right; rw [h', h'']
  obtain ⟨-, -, -, aa, ab, -⟩ := C28_promote (real_numeric ha) (real_numeric hb)
  have hr : (promote a b).Numeric := promote_numeric (real_numeric ha) (real_numeric hb)
  have conv : ∀ {e : DType} {h : Held Elem}, e.Real → Accepts e (promote a b) → Typed e h →
      (∀ i n, InShape h.view.shape i → h.nd.get i = .int n → n.natAbs ≤ 2 ^ 53) → BroadcastsTo h.view.shape out →
      Converts (promote a b) ((h.nd.broadcast out).get i) (writeF64 (promote a b) ((readF64 ((h.nd.broadcast out).get i)).getD (.num 0))) := by
    intro e h he hacc ht hs hbc
    have hsrc := sourceIdx_in hbc hi
    have hget : (h.nd.broadcast out).get i = h.nd.get (sourceIdx h.view.shape out i) := rfl
    rw [hget]
    have htt := ht _ hsrc
    obtain ⟨u, hu1, hu2, hu3⟩ := readF64_real he htt fun n hn => hs _ n hsrc hn
    rw [hu1]
    refine writeF64_converts hr hu2 hu3 fun n lo hi' hn hrange => ?_
    rw [hn] at htt
    exact accepts_range he hacc htt hrange
  have hct : isTruthy ((c.nd.broadcast out).get i) = true ↔ ((c.nd.broadcast out).get i).Truthy :=
    isTruthy_iff hd (tc _ (sourceIdx_in (tr b1) hi))
  constructor
  · intro h
    show Converts _ _ (whereElem _ _ _ _)
    unfold whereElem
    rw [if_pos (hct.2 h)]
    exact conv ha aa tx sx (tr b2)
  · intro h
    show Converts _ _ (whereElem _ _ _ _)
    unfold whereElem
    rw [if_neg (fun hh => h (hct.1 hh))]
    exact conv hb ab ty sy b4

example : whereFallback .i8 .f32 (stored .f64 [2] [.flt (.num (1/2)), .flt (.num 0)]) (stored .i8 [2] [.int 7, .int 8]) (stored .f32 [1] [.flt (.num (1/4))]) =
    some (.f32, ⟨[2], [.flt (.num 7), .flt (.num (1/4))]⟩) := by decide +kernel

/-- C101: two `int8` operands, which the kernels do not cover, are copied. -/
theorem C101_where_int8 {d : DType} (hd : d.Numeric) {c x y : Held Elem} (hc : c.view.WF) (hx : x.view.WF) (hy : y.view.WF) (tc : Typed d c)
    {cx out : List Nat} (h1 : IsBroadcast c.view.shape x.view.shape cx) (h2 : IsBroadcast cx y.view.shape out) :
    ∃ r, whereFallback .i8 .i8 c x y = some (.i8, r) ∧ r.shape = out ∧ ∀ i, InShape out i → ∃ z, r.at? i = some z ∧
      (((c.nd.broadcast out).get i).Truthy → z = (x.nd.broadcast out).get i) ∧
      (¬ ((c.nd.broadcast out).get i).Truthy → z = (y.nd.broadcast out).get i) := by
  rw [whereFallback_eq hc hx hy h1 h2, if_pos (by decide)]
  refine ⟨_, rfl, rfl, fun i hi => ⟨_, Arr.Is.at? (nd := ⟨out, fun i => whereCopy ((c.nd.broadcast out).get i)
    ((x.nd.broadcast out).get i) ((y.nd.broadcast out).get i)⟩) ⟨rfl, rfl⟩ hi, ?_⟩⟩
  obtain ⟨b1, b2⟩ := broadcastsTo_of h1
  obtain ⟨b3, b4⟩ := broadcastsTo_of h2
  have bc : BroadcastsTo c.view.shape out := by
    refine ⟨by have := b1.1; have := b3.1; omega, fun k hk => ?_⟩
    have := b1.1
    rcases b1.2 k hk with h' | h'
    · exact Or.inl h'
    · rcases b3.2 k (by omega) with h'' | h''
      · left; rw [h', h'']
      · right; rw [h', h'']
  have hct : isTruthy ((c.nd.broadcast out).get i) = true ↔ ((c.nd.broadcast out).get i).Truthy :=
    isTruthy_iff hd (tc _ (sourceIdx_in bc hi))
  constructor
  · intro h
    show whereCopy _ _ _ = _
    unfold whereCopy
    rw [if_pos (hct.2 h)]
  · intro h
    show whereCopy _ _ _ = _
    unfold whereCopy
    rw [if_neg (fun hh => h (hct.1 hh))]

example : whereFallback .i8 .i8 (stored .f64 [2] [.flt .nan, .flt (.num 0)]) (stored .i8 [2] [.int 7, .int 8]) (stored .i8 [1] [.int 9]) =
    some (.i8, ⟨[2], [.int 7, .int 9]⟩) := by decide +kernel

/-- C101 is false for large integers: `where` of an `int32` and an `int64` array changes 2^53 + 1. -/
theorem C101_where_large_counterexample :
    whereFallback .i32 .i64 (stored .bool [1] [.bool false]) (stored .i32 [1] [.int 0]) (stored .i64 [1] [.int (2 ^ 53 + 1)]) =
      some (.i64, ⟨[1], [.int (2 ^ 53)]⟩) := by decide +kernel

/-- C101 is false for complex operands: with another dtype beside it, a complex number becomes zero. -/
theorem C101_where_complex_counterexample :
    whereFallback .c128 .f64 (stored .bool [2] [.bool true, .bool false]) (stored .c128 [1] [.cpx (.num 1) (.num 2)])
      (stored .f64 [1] [.flt (.num 3)]) = some (.c128, ⟨[2], [.cpx (.num 0) (.num 0), .cpx (.num 3) (.num 0)]⟩) := by decide +kernel

/-- C101 is false for Python numbers: whatever the dtype of the other operand, the result of `where` with a Python number has dtype
`float64`, for `int64` and `float32` arrays as well. -/
theorem C101_where_scalar_counterexample {a : DType} (ha : a.Real) (c x : Held Elem) (s : PyScalar) {r : DType} {q : Arr Elem}
    (h : whereScalar a c x s = some (r, q)) : r = .f64 := by
  unfold whereScalar whereFallback at h
  obtain ⟨v, -, h⟩ := Option.bind_eq_some_iff.1 h
  simp only [Option.bind_eq_bind] at h
  obtain ⟨_, -, h⟩ := Option.bind_eq_some_iff.1 h
  obtain ⟨_, -, h⟩ := Option.bind_eq_some_iff.1 h
  obtain ⟨_, -, h⟩ := Option.bind_eq_some_iff.1 h
  obtain ⟨_, -, h⟩ := Option.bind_eq_some_iff.1 h
  obtain ⟨_, -, h⟩ := Option.bind_eq_some_iff.1 h
  have hp : promote a .f64 = .f64 := by cases a <;> first | exact ha.elim | rfl
  rw [hp] at h
  split at h
  · simp only [Option.some.injEq, Prod.mk.injEq] at h; exact h.1.symm
  · split at h <;> (simp only [Option.some.injEq, Prod.mk.injEq] at h; exact h.1.symm)

example : whereScalar .i64 (stored .bool [2] [.bool true, .bool false]) (stored .i64 [2] [.int (2 ^ 53 + 1), .int 5]) (.int 0) =
    some (.f64, ⟨[2], [.flt (.num (2 ^ 53)), .flt (.num 0)]⟩) := by decide +kernel

/-! ### choose -/

theorem chooseRaw_some {I : Nd Elem} {c : RawArr} {cs : List RawArr} {r : DType} {q : Arr (Option (List (BitVec 8)))}
    (h : chooseRaw I (c :: cs) = some (r, q)) : r = c.dtype ∧ q.Is ⟨I.shape, fun i =>
      (((c :: cs).map (choiceAs (DType.itemsize c.dtype))).getD (readIndex (I.get i)).toNat ⟨[], fun _ => none⟩).get i⟩ ∧
      (∀ i, InShape I.shape i → 0 ≤ readIndex (I.get i) ∧ readIndex (I.get i) < (c :: cs).length) := by
  obtain ⟨q', hq, h⟩ := Option.map_eq_some_iff.1 h
  simp only [Prod.mk.injEq] at h
  obtain ⟨rfl, rfl⟩ := h
  refine ⟨rfl, C52_choose _ _ _ _ _ hq, fun i hi => ?_⟩
  have := ((C52_choose_succeeds_iff _ _ _).1 (by rw [hq]; rfl)).2.2 i hi
  rwa [List.length_map] at this

theorem choice_at {I : Nd Elem} {c : RawArr} {cs : List RawArr} {r : DType} {q : Arr (Option (List (BitVec 8)))}
    (h : chooseRaw I (c :: cs) = some (r, q)) {i : List Nat} (hi : InShape I.shape i) {k : Nat} (hk : readIndex (I.get i) = k) :
    ∃ a, (c :: cs)[k]? = some a ∧ q.at? i = some (elementBytes (DType.itemsize c.dtype) a.buf (a.view.addr i)) := by
  obtain ⟨-, hq, hlt⟩ := chooseRaw_some h
  have hl := (hlt i hi).2
  rw [hk] at hl
  have hl : k < (c :: cs).length := by exact_mod_cast hl
  refine ⟨(c :: cs)[k], List.getElem?_eq_getElem hl, ?_⟩
  rw [hq.at? hi]
  dsimp only
  rw [hk, Int.toNat_natCast, List.getD_eq_getElem?_getD, List.getElem?_map, List.getElem?_eq_getElem hl]
  rfl

/-- C101: `choose` succeeds exactly when there is a choice, every choice has the shape of the index array, and every index is
that of a choice. -/
theorem C101_choose_succeeds_iff (I : Nd Int) (hI : ∀ i, InShape I.shape i → -2 ^ 63 ≤ I.get i ∧ I.get i < 2 ^ 63) (choices : List RawArr) :
    (chooseRaw ⟨I.shape, fun i => .int (I.get i)⟩ choices).isSome ↔ choices ≠ [] ∧ (∀ c ∈ choices, c.view.shape = I.shape) ∧
      ∀ i, InShape I.shape i → 0 ≤ I.get i ∧ I.get i < choices.length := by
  have hidx : ∀ i, InShape I.shape i → readIndex (.int (I.get i)) = I.get i := by
    intro i hi
    have := hI i hi
    show wrap64 _ = _
    unfold wrap64
    rw [Int.bmod_eq_of_le] <;> omega
  cases choices with
  | nil => simp [chooseRaw]
  | cons c cs =>
    unfold chooseRaw
    rw [Option.isSome_map, C52_choose_succeeds_iff, List.forall_mem_map, List.length_map]
    refine and_congr (by simp) (and_congr Iff.rfl (forall_congr' fun i => forall_congr' fun hi => ?_))
    show 0 ≤ readIndex (.int (I.get i)) ∧ readIndex (.int (I.get i)) < _ ↔ _
    rw [hidx i hi]

/-- C101 (partial): with choices of one dtype, whatever their layout, the result has this dtype and its element at `i` has the
bytes of the element at `i` of the choice that the index array names.  Missing: choices of different dtypes. -/
theorem C101_choose_partial {d : DType} {I : Nd Elem} {choices : List RawArr} (hd : ∀ c ∈ choices, c.dtype = d) (hs : ∀ c ∈ choices, Sound c)
    (hsh : ∀ c ∈ choices, c.view.shape = I.shape) {r : DType} {q : Arr (Option (List (BitVec 8)))} (h : chooseRaw I choices = some (r, q)) :
    r = d ∧ q.shape = I.shape ∧ ∀ i, InShape I.shape i → ∀ k : Nat, readIndex (I.get i) = k → ∃ a, choices[k]? = some a ∧
      q.at? i = some (some (bytesAt a.buf (a.view.addr i) (DType.itemsize d))) := by
  cases choices with
  | nil => cases h
  | cons c cs =>
    obtain ⟨hr, hq, -⟩ := chooseRaw_some h
    refine ⟨hr.trans (hd c List.mem_cons_self), hq.1, fun i hi k hk => ?_⟩
    obtain ⟨a, ha, hb⟩ := choice_at h hi hk
    refine ⟨a, ha, ?_⟩
    have hm := List.mem_of_getElem? ha
    have hin := (hs a hm).inside i (by rw [hsh a hm]; exact hi)
    rw [hd a hm] at hin
    rw [hb, hd c List.mem_cons_self]
    unfold elementBytes
    rw [if_pos hin]

example : chooseRaw ⟨[2], fun i => .int (if i = [0] then 1 else 0)⟩ [rawOf .u16 [2] [1, 0, 2, 0], rawOf .u16 [2] [3, 0, 4, 0]] =
    some (.u16, ⟨[2], [some [3, 0], some [2, 0]]⟩) := by decide +kernel

/-- C101 is false for choices of different dtypes: `choose([0, 1], [int64 [1, 2], float64 [1.0, 2.0]])` has dtype `int64`, and its second
element is the bit pattern of 2.0. -/
theorem C101_choose_counterexample :
    chooseRaw ⟨[2], fun i => .int (if i = [0] then 0 else 1)⟩
      [rawOf .i64 [2] [1, 0, 0, 0, 0, 0, 0, 0, 2, 0, 0, 0, 0, 0, 0, 0], rawOf .f64 [2] [0, 0, 0, 0, 0, 0, 240, 63, 0, 0, 0, 0, 0, 0, 0, 64]] =
      some (.i64, ⟨[2], [some [1, 0, 0, 0, 0, 0, 0, 0], some [0, 0, 0, 0, 0, 0, 0, 64]]⟩) ∧
    bytesElem .i64 [0, 0, 0, 0, 0, 0, 0, 64] = .int 4611686018427387904 := by decide +kernel

/-- C101 is false for choices with smaller elements than the first one: where the index array names such a choice for its last
element, `choose` reads memory outside its buffer. -/
theorem C101_choose_outside_buffer {I : Nd Elem} {c : RawArr} {cs : List RawArr} {r : DType} {q : Arr (Option (List (BitVec 8)))}
    (h : chooseRaw I (c :: cs) = some (r, q)) {i : List Nat} (hi : InShape I.shape i) (hlast : rank I.shape i + 1 = size I.shape)
    {k : Nat} (hk : readIndex (I.get i) = k) {a : RawArr} (ha : (c :: cs)[k]? = some a) (ho : Owns a) (hsh : a.view.shape = I.shape)
    (hlt : DType.itemsize a.dtype < DType.itemsize c.dtype) : q.at? i = some none := by
  obtain ⟨a', ha', hb⟩ := choice_at h hi hk
  rw [ha] at ha'
  obtain rfl := Option.some.inj ha'
  rw [hb]
  unfold elementBytes
  rw [if_neg]
  rintro ⟨-, h2⟩
  rw [owns_addr ho (by rw [hsh]; exact hi), ho.buf, hsh, ← hlast, Nat.add_mul] at h2
  generalize DType.itemsize c.dtype = n at *
  generalize rank I.shape i * DType.itemsize a.dtype = m at *
  push_cast at h2
  omega

example : chooseRaw ⟨[2], fun _ => .int 1⟩ [rawOf .i16 [2] [1, 0, 2, 0], rawOf .u8 [2] [5, 6]] = some (.i16, ⟨[2], [some [5, 6], none]⟩) ∧
    Owns (rawOf .u8 [2] [5, 6]) := ⟨by decide +kernel, rawOf_owns rfl⟩

/-- C101 is false for indices of other dtypes and for choices that would have to be broadcast: an index 1.9 names choice 1, and a
choice of length 1 is refused. -/
theorem C101_choose_index_counterexample :
    chooseRaw ⟨[1], fun _ => .flt (.num (19 / 10))⟩ [rawOf .u8 [1] [5], rawOf .u8 [1] [6]] = some (.u8, ⟨[1], [some [6]]⟩) ∧
    chooseRaw ⟨[2], fun _ => .int 0⟩ [rawOf .u8 [1] [5]] = none := by decide +kernel

end Props
