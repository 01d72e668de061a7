import Verif.Spec.Bitwise
import Verif.Model.Bitwise
import Verif.Lemmas.Bitwise
import Verif.Props.Arith
/-!
# C97: bitwise operations of arrays, and of an array and a Python integer
-/

namespace Props
open Spec Rumpy

/-- An array in memory: its elements lie in its buffer, and bools are stored as 0 or 1. -/
structure Sound (a : RawArr) : Prop where
  wf : a.view.WF
  inside : ∀ i, InShape a.view.shape i → 0 ≤ a.view.addr i ∧ a.view.addr i + DType.itemsize a.dtype ≤ a.buf.length
  clean : a.dtype = .bool → ∀ i, InShape a.view.shape i → bytesNat (bytesAt a.buf (a.view.addr i) (DType.itemsize a.dtype)) < 2

/-- A new array, as made by `rp.array`, `rp.zeros` or an operation: it owns a buffer of exactly its size. -/
structure Owns (a : RawArr) : Prop where
  view : a.view = View.fresh a.view.shape (DType.itemsize a.dtype)
  buf : a.buf.length = size a.view.shape * DType.itemsize a.dtype

/-- A new array with given bytes, for examples. -/
def rawOf (d : DType) (s : List Nat) (bs : List (BitVec 8)) : RawArr := ⟨d, View.fresh s (DType.itemsize d), bs⟩

theorem owns_addr {a : RawArr} (h : Owns a) {i : List Nat} (hi : InShape a.view.shape i) :
    a.view.addr i = (rank a.view.shape i * DType.itemsize a.dtype : Nat) := by
  have hw : a.view.WF := by rw [h.view]; exact View.WF.fresh _ _
  have hc : a.view.cFlag = true := by rw [h.view]; rfl
  have ho : a.view.offset = 0 := by rw [h.view]; rfl
  have hit : a.view.item = DType.itemsize a.dtype := by rw [h.view]; rfl
  rw [cFlag_addr hw hc hi, ho, hit]
  push_cast
  ring

theorem owns_sound {a : RawArr} (h : Owns a) (hb : a.dtype ≠ .bool) : Sound a where
  wf := by rw [h.view]; exact View.WF.fresh _ _
  inside := fun i hi => by
    rw [owns_addr h hi, h.buf]
    have := rank_lt hi
    refine ⟨by positivity, ?_⟩
    have h2 : (rank a.view.shape i + 1) * DType.itemsize a.dtype ≤ size a.view.shape * DType.itemsize a.dtype := Nat.mul_le_mul_right _ this
    rw [Nat.add_mul] at h2
    push_cast at *
    omega
  clean := fun hc => absurd hc hb

theorem rawOf_owns {d : DType} {s : List Nat} {bs : List (BitVec 8)} (h : bs.length = size s * DType.itemsize d) : Owns (rawOf d s bs) :=
  ⟨rfl, h⟩

def wholeTypes : List DType := [.bool, .i8, .i16, .i32, .i64, .u8, .u16, .u32, .u64]

theorem mem_wholeTypes {d : DType} (h : d.Whole) : d ∈ wholeTypes := by
  cases d <;> first | (exact False.elim h) | decide

theorem whole_real {d : DType} (h : d.Whole) : d.Real := by
  cases d <;> first | (exact False.elim h) | trivial

/-! ### Errors and dtypes -/

/-- C97 (partial): operations of arrays of bools, integers and floats that have elements are refused exactly when the shapes do not
broadcast, an operand is a float, or one is `uint64` and the other signed.  Missing: results without elements, dates and text. -/
theorem C97_error_iff_partial (op : BitOp) {a b : RawArr} (ha : a.view.WF) (hb : b.view.WF) (ta : a.dtype.Real) (tb : b.dtype.Real)
    (hne : ∀ s, IsBroadcast a.view.shape b.view.shape s → size s ≠ 0) :
    bitwise op a b = none ↔ (¬ ∃ s, IsBroadcast a.view.shape b.view.shape s) ∨ ¬ a.dtype.Whole ∨ ¬ b.dtype.Whole ∨
      (a.dtype = .u64 ∧ b.dtype ∈ [DType.i8, .i16, .i32, .i64]) ∨ (b.dtype = .u64 ∧ a.dtype ∈ [DType.i8, .i16, .i32, .i64]) := by
  have key : ∀ x ∈ realTypes, ∀ y ∈ realTypes, bitAccepts (promote x y) = false ↔ ¬ x.Whole ∨ ¬ y.Whole ∨
      (x = .u64 ∧ y ∈ [DType.i8, .i16, .i32, .i64]) ∨ (y = .u64 ∧ x ∈ [DType.i8, .i16, .i32, .i64]) := by decide +kernel
  rw [bitwise_none_iff op ha hb, key _ (mem_realTypes ta) _ (mem_realTypes tb)]
  by_cases h : ∃ s, IsBroadcast a.view.shape b.view.shape s
  · have h2 : ∃ s, IsBroadcast a.view.shape b.view.shape s ∧ size s ≠ 0 := by
      obtain ⟨s, hs⟩ := h
      exact ⟨s, hs, hne s hs⟩
    simp only [h, h2, not_true_eq_false, false_or, true_and]
  · simp [h]

example : bitwise .and (rawOf .i8 [2] [1, 2]) (rawOf .f16 [2] [0, 0, 0, 0]) = none ∧
    bitwise .and (rawOf .i8 [1] [1]) (rawOf .u64 [1] [0, 0, 0, 0, 0, 0, 0, 0]) = none := by decide +kernel

/-- Two empty float arrays, an integer and a date, and an integer and a text can be combined. -/
theorem C97_error_counterexample :
    bitwise .and (rawOf .f64 [0] []) (rawOf .f64 [0] []) = some (.f64, ⟨[0], []⟩) ∧
      bitwise .and (rawOf .i64 [1] [6, 0, 0, 0, 0, 0, 0, 0]) (rawOf (.datetime .s) [1] [3, 0, 0, 0, 0, 0, 0, 0]) =
        some (.i64, ⟨[1], [some (.int 2)]⟩) ∧
      bitwise .and (rawOf .i32 [1] [255, 255, 255, 255]) (rawOf (.str 1) [1] [97, 0, 0, 0]) = some (.i32, ⟨[1], [some (.int 97)]⟩) := by
  decide +kernel

/-- C97: the dtype of the result is the smallest that accepts both operands. -/
theorem C97_type (op : BitOp) {a b : RawArr} (ta : a.dtype.Whole) (tb : b.dtype.Whole) {r : DType} {q : Arr (Option Elem)}
    (h : bitwise op a b = some (r, q)) : IsJoin a.dtype b.dtype r := by
  have e : r = promote a.dtype b.dtype := by
    unfold bitwise at h
    cases hs : broadcastShapes a.view.shape b.view.shape with
    | none => rw [hs] at h; cases h
    | some out =>
      rw [hs] at h
      simp only [Option.bind_eq_bind, Option.bind_some, Option.bind_eq_some_iff] at h
      obtain ⟨va, -, vb, -, h⟩ := h
      split at h
      · cases h; rfl
      · split at h
        · cases h; rfl
        · cases h
  rw [e]
  exact C28_promote (real_numeric (whole_real ta)) (real_numeric (whole_real tb))

example : bitwise .or (rawOf .bool [1] [1]) (rawOf .u8 [1] [4]) = some (.u8, ⟨[1], [some (.int 5)]⟩) := by decide +kernel

/-! ### Values -/

/-- Both operands are stored with the size of the result. -/
def SameSize (a b : DType) : Prop := DType.itemsize a = DType.itemsize (promote a b) ∧ DType.itemsize b = DType.itemsize (promote a b)

/-- What is read from an operand stored with the size of the result. -/
theorem read_whole {a : RawArr} {r : DType} (ha : Sound a) (hr : isIntegerKind r = true) (hd : a.dtype = r ∨ a.dtype = .bool ∧ DType.itemsize r = 1)
    {i : List Nat} (hi : InShape a.view.shape i) : ∃ x : BitVec (8 * DType.itemsize r),
      readBits (DType.itemsize r) a.buf (a.view.addr i) = some x ∧ (a.nd.get i).whole = some (intValue (DType.isSigned r) x) := by
  obtain ⟨h0, h1⟩ := ha.inside i hi
  rcases hd with hd | ⟨hd, hs⟩
  · rw [hd] at h1
    refine ⟨_, readBits_some h0 h1, ?_⟩
    show (bytesElem a.dtype (bytesAt a.buf (a.view.addr i) (DType.itemsize a.dtype))).whole = _
    rw [hd, bytesElem_int hr (bytesAt_length h0 h1)]
    rfl
  · have hc := ha.clean hd i hi
    have e1 : DType.itemsize a.dtype = 1 := by rw [hd]; rfl
    rw [e1] at h1 hc
    refine ⟨_, readBits_some h0 (by rw [hs]; exact h1), ?_⟩
    show (bytesElem a.dtype (bytesAt a.buf (a.view.addr i) (DType.itemsize a.dtype))).whole = _
    rw [e1, hd, bytesElem_bool (bytesAt_length h0 h1), hs]
    generalize bytesNat (bytesAt a.buf (a.view.addr i) 1) = m at hc
    have : m = 0 ∨ m = 1 := by omega
    rcases this with rfl | rfl <;> cases DType.isSigned r <;> rfl

theorem sameSize_cases {a b : DType} (ta : a.Whole) (tb : b.Whole) (hr : isIntegerKind (promote a b) = true) (hs : SameSize a b) :
    (a = promote a b ∨ a = .bool ∧ DType.itemsize (promote a b) = 1) ∧ (b = promote a b ∨ b = .bool ∧ DType.itemsize (promote a b) = 1) := by
  have key : ∀ a ∈ wholeTypes, ∀ b ∈ wholeTypes, isIntegerKind (promote a b) = true → DType.itemsize a = DType.itemsize (promote a b) →
      DType.itemsize b = DType.itemsize (promote a b) →
      (a = promote a b ∨ a = .bool ∧ DType.itemsize (promote a b) = 1) ∧ (b = promote a b ∨ b = .bool ∧ DType.itemsize (promote a b) = 1) := by
    decide +kernel
  exact key a (mem_wholeTypes ta) b (mem_wholeTypes tb) hr hs.1 hs.2

/-- The result of an operation whose operands are stored with the size of the result. -/
theorem bitwise_values (op : BitOp) {a b : RawArr} (ha : Sound a) (hb : Sound b) (ta : a.dtype.Whole) (tb : b.dtype.Whole)
    (hr : isIntegerKind (promote a.dtype b.dtype) = true) (hs : SameSize a.dtype b.dtype) {out : List Nat}
    (ho : IsBroadcast a.view.shape b.view.shape out) :
    ∃ q, bitwise op a b = some (promote a.dtype b.dtype, q) ∧ q.shape = out ∧ q.data.length = size out ∧ ∀ i, InShape out i →
      ∃ x y : BitVec (8 * DType.itemsize (promote a.dtype b.dtype)),
        ((a.nd.broadcast out).get i).whole = some (intValue (DType.isSigned (promote a.dtype b.dtype)) x) ∧
        ((b.nd.broadcast out).get i).whole = some (intValue (DType.isSigned (promote a.dtype b.dtype)) y) ∧
        q.at? i = some (some (.int (intValue (DType.isSigned (promote a.dtype b.dtype)) (bitKernel (DType.isSigned (promote a.dtype b.dtype)) op x y)))) := by
  obtain ⟨c1, c2⟩ := sameSize_cases ta tb hr hs
  obtain ⟨b1, b2⟩ := broadcastsTo_of ho
  have hacc : bitAccepts (promote a.dtype b.dtype) = true := by unfold bitAccepts; rw [hr, Bool.or_true]
  have hnb : promote a.dtype b.dtype ≠ .bool := fun hc => by rw [hc] at hr; cases hr
  refine ⟨_, by rw [bitwise_eq op ha.wf hb.wf ho, if_pos (.inr hacc)], rfl, by simp [length_indices], fun i hi => ?_⟩
  obtain ⟨x, x1, x2⟩ := read_whole ha hr c1 (sourceIdx_in b1 hi)
  obtain ⟨y, y1, y2⟩ := read_whole hb hr c2 (sourceIdx_in b2 hi)
  refine ⟨x, y, x2, y2, ?_⟩
  have h := Arr.Is.at? (a := ⟨out, (indices out).map (bitAt op (promote a.dtype b.dtype) a b out)⟩)
    (nd := ⟨out, bitAt op (promote a.dtype b.dtype) a b out⟩) ⟨rfl, rfl⟩ (idx := i) hi
  rw [h]
  show some (bitElem op _ (readBits _ _ _) (readBits _ _ _)) = _
  rw [x1, y1]
  show some (some (if _ then _ else _)) = _
  rw [if_neg hnb]
  rfl

/-- C97 (partial): `&`, `|` and `^` of integers (or an integer and a bool) combine the bits of the two numbers, for arrays of one dtype
and for a bool and an 8-bit array.  Missing: operands of different sizes (`C97_outside_buffer`). -/
theorem C97_bits_partial {op : BitOp} {f : Bool → Bool → Bool} (hf : bitFun op = some f) {a b : RawArr} (ha : Sound a) (hb : Sound b)
    (ta : a.dtype.Whole) (tb : b.dtype.Whole) (hr : isIntegerKind (promote a.dtype b.dtype) = true) (hs : SameSize a.dtype b.dtype)
    {out : List Nat} (ho : IsBroadcast a.view.shape b.view.shape out) :
    ∃ q, bitwise op a b = some (promote a.dtype b.dtype, q) ∧ q.shape = out ∧ q.data.length = size out ∧ ∀ i, InShape out i → ∃ x y z,
      ((a.nd.broadcast out).get i).whole = some x ∧ ((b.nd.broadcast out).get i).whole = some y ∧ q.at? i = some (some (.int z)) ∧
      IsBitwise f x y z := by
  obtain ⟨q, h1, h2, h3, h4⟩ := bitwise_values op ha hb ta tb hr hs ho
  refine ⟨q, h1, h2, h3, fun i hi => ?_⟩
  obtain ⟨x, y, e1, e2, e3⟩ := h4 i hi
  exact ⟨_, _, _, e1, e2, e3, bitKernel_bitwise hf _ x y⟩

example : bitwise .xor (rawOf .i16 [2] [5, 0, 255, 255]) (rawOf .i16 [1] [3, 0]) = some (.i16, ⟨[2], [some (.int 6), some (.int (-4))]⟩) ∧
    Owns (rawOf .i16 [2] [5, 0, 255, 255]) ∧ SameSize .i16 .i16 ∧ bitFun .xor = some (fun u v => u ^^ v) :=
  ⟨by decide +kernel, rawOf_owns rfl, ⟨rfl, rfl⟩, rfl⟩

/-- C97 (partial): `<<` multiplies by a power of two modulo the number of values of the dtype, and `>>` is the floor of the quotient, for
amounts from 0 to below the width.  Missing: other amounts (`C97_shift_counterexample`) and operands of different sizes. -/
theorem C97_shift_partial {a b : RawArr} (ha : Sound a) (hb : Sound b) (ta : a.dtype.Whole) (tb : b.dtype.Whole)
    (hr : isIntegerKind (promote a.dtype b.dtype) = true) (hs : SameSize a.dtype b.dtype) {lo hi : Int}
    (hrange : (promote a.dtype b.dtype).intRange = some (lo, hi)) {out : List Nat} (ho : IsBroadcast a.view.shape b.view.shape out) :
    ∃ q p, bitwise .shl a b = some (promote a.dtype b.dtype, q) ∧ bitwise .shr a b = some (promote a.dtype b.dtype, p) ∧ q.shape = out ∧ p.shape = out ∧
      ∀ i, InShape out i → ∃ x y z w, ((a.nd.broadcast out).get i).whole = some x ∧ ((b.nd.broadcast out).get i).whole = some y ∧
        q.at? i = some (some (.int z)) ∧ p.at? i = some (some (.int w)) ∧ lo ≤ z ∧ z ≤ hi ∧
        (0 ≤ y → y < 8 * DType.itemsize (promote a.dtype b.dtype) → (hi - lo + 1) ∣ z - x * 2 ^ y.toNat ∧ w = x / 2 ^ y.toNat) := by
  obtain ⟨q, h1, h2, -, h4⟩ := bitwise_values .shl ha hb ta tb hr hs ho
  obtain ⟨p, k1, k2, -, k4⟩ := bitwise_values .shr ha hb ta tb hr hs ho
  obtain ⟨lo', hi', hr', hsz, -, hin⟩ := int_kind hr
  rw [hrange] at hr'
  cases hr'
  refine ⟨q, p, h1, k1, h2, k2, fun i hii => ?_⟩
  obtain ⟨x, y, e1, e2, e3⟩ := h4 i hii
  obtain ⟨x', y', f1, f2, f3⟩ := k4 i hii
  have inj : ∀ u v : BitVec (8 * DType.itemsize (promote a.dtype b.dtype)),
      intValue (DType.isSigned (promote a.dtype b.dtype)) u = intValue (DType.isSigned (promote a.dtype b.dtype)) v → u = v := by
    intro u v h
    unfold intValue at h
    cases hsg : DType.isSigned (promote a.dtype b.dtype) <;> rw [hsg] at h
    · exact BitVec.eq_of_toNat_eq (by simpa using h)
    · exact BitVec.eq_of_toInt_eq (by simpa using h)
  have ex : x' = x := inj _ _ (Option.some.inj (f1.symm.trans e1))
  have ey : y' = y := inj _ _ (Option.some.inj (f2.symm.trans e2))
  subst ex ey
  have hbits : DType.intBits (promote a.dtype b.dtype) = 8 * DType.itemsize (promote a.dtype b.dtype) := by
    generalize promote a.dtype b.dtype = r at hr
    cases r <;> first | (cases hr; done) | rfl
  have hw : 8 * DType.itemsize (promote a.dtype b.dtype) ∈ [8, 16, 32, 64] := by
    generalize promote a.dtype b.dtype = r at hr
    cases r <;> first | (cases hr; done) | decide
  have hz := (hin _).1 (by rw [hbits]; exact intValue_range (DType.isSigned (promote a.dtype b.dtype)) (bitKernel (DType.isSigned (promote a.dtype b.dtype)) .shl x' y'))
  refine ⟨_, _, _, _, e1, e2, e3, f3, hz.1, hz.2, fun y0 y1 => ?_⟩
  have := C34_shift_partial (DType.isSigned (promote a.dtype b.dtype)) hw x' y' y0 (by exact_mod_cast y1)
  rw [hsz, hbits]
  exact this

example : bitwise .shl (rawOf .u8 [2] [3, 200]) (rawOf .u8 [1] [1]) = some (.u8, ⟨[2], [some (.int 6), some (.int 144)]⟩) ∧
    bitwise .shr (rawOf .i8 [1] [251]) (rawOf .i8 [1] [1]) = some (.i8, ⟨[1], [some (.int (-3))]⟩) := by decide +kernel

/-- `[1] << [8]` of `uint8` is 1, and a shift of bools is its left operand (NumPy's is an `int8`). -/
theorem C97_shift_counterexample :
    bitwise .shl (rawOf .u8 [1] [1]) (rawOf .u8 [1] [8]) = some (.u8, ⟨[1], [some (.int 1)]⟩) ∧
      bitwise .shl (rawOf .bool [1] [1]) (rawOf .bool [1] [1]) = some (.bool, ⟨[1], [some (.bool true)]⟩) := by decide +kernel

/-- C97: `&`, `|` and `^` of bools. -/
theorem C97_bools {op : BitOp} {f : Bool → Bool → Bool} (hf : bitFun op = some f) {a b : RawArr} (ha : Sound a) (hb : Sound b)
    (ta : a.dtype = .bool) (tb : b.dtype = .bool) {out : List Nat} (ho : IsBroadcast a.view.shape b.view.shape out) :
    ∃ q, bitwise op a b = some (.bool, q) ∧ q.shape = out ∧ q.data.length = size out ∧ ∀ i, InShape out i → ∃ x y,
      (a.nd.broadcast out).get i = .bool x ∧ (b.nd.broadcast out).get i = .bool y ∧ q.at? i = some (some (.bool (f x y))) := by
  obtain ⟨b1, b2⟩ := broadcastsTo_of ho
  have hp : promote a.dtype b.dtype = .bool := by rw [ta, tb]; rfl
  have read : ∀ {c : RawArr}, Sound c → c.dtype = .bool → ∀ i, InShape c.view.shape i → ∃ x : BitVec 8,
      readBits 1 c.buf (c.view.addr i) = some x ∧ c.nd.get i = .bool (x != 0) := by
    intro c hc tc i hi
    obtain ⟨h0, h1⟩ := hc.inside i hi
    rw [tc] at h1
    refine ⟨_, readBits_some (n := 1) h0 h1, ?_⟩
    show bytesElem c.dtype (bytesAt c.buf (c.view.addr i) (DType.itemsize c.dtype)) = _
    rw [tc]
    exact bytesElem_bool (bytesAt_length h0 h1)
  refine ⟨⟨out, (indices out).map (bitAt op .bool a b out)⟩, by rw [bitwise_eq op ha.wf hb.wf ho, hp]; exact if_pos (.inr rfl), rfl,
    by simp [length_indices], fun i hi => ?_⟩
  obtain ⟨x, x1, x2⟩ := read ha ta _ (sourceIdx_in b1 hi)
  obtain ⟨y, y1, y2⟩ := read hb tb _ (sourceIdx_in b2 hi)
  refine ⟨x != 0, y != 0, x2, y2, ?_⟩
  have h := Arr.Is.at? (a := ⟨out, (indices out).map (bitAt op .bool a b out)⟩)
    (nd := ⟨out, bitAt op .bool a b out⟩) ⟨rfl, rfl⟩ (idx := i) hi
  rw [h]
  have e : bitAt op .bool a b out i = some (.bool (boolBit op (x != 0) (y != 0))) := by
    show bitElem op .bool (readBits 1 _ _) (readBits 1 _ _) = _
    rw [x1, y1]
    rfl
  show some (bitAt op .bool a b out i) = _
  rw [e]
  cases op <;> cases hf <;> (generalize (x != 0) = u; generalize (y != 0) = v; cases u <;> cases v <;> rfl)

example : bitwise .xor (rawOf .bool [2] [1, 0]) (rawOf .bool [1] [1]) = some (.bool, ⟨[2], [some (.bool false), some (.bool true)]⟩) := by
  decide +kernel

/-- C97: `~` of a bool is its negation; of a signed integer `x` it is `-x - 1`, which flips every bit, and of an unsigned integer its
distance from the largest. -/
theorem C97_not {a : RawArr} (ha : Sound a) (ta : a.dtype.Whole) :
    ∃ q, bitwiseNot a = some (a.dtype, q) ∧ q.shape = a.view.shape ∧ q.data.length = size a.view.shape ∧ ∀ i, InShape a.view.shape i →
      (∃ x, a.dtype = .bool ∧ a.nd.get i = .bool x ∧ q.at? i = some (some (.bool !x))) ∨
      ∃ lo hi x, a.dtype.intRange = some (lo, hi) ∧ a.nd.get i = .int x ∧ q.at? i = some (some (.int (lo + hi - x))) := by
  have heq : bitwiseNot a = some (a.dtype, ⟨a.view.shape, (indices a.view.shape).map fun i =>
      notElem a.dtype (readBits (DType.itemsize a.dtype) a.buf (a.view.addr i))⟩) := by
    unfold bitwiseNot
    rw [mapUnary_eq _ _ ha.wf, mapUnaryFallback_eq _ _ ha.wf, sizeOf_eq]
    split
    · next h0 =>
      have : indices a.view.shape = [] := List.eq_nil_of_length_eq_zero (by rw [length_indices, h0])
      rw [this]; rfl
    · split
      · rfl
      · next hn =>
        rw [if_pos]
        generalize a.dtype = d at *
        cases d <;> first | (exact False.elim ta) | rfl | (exact absurd rfl hn)
  refine ⟨_, heq, rfl, by simp [length_indices], fun i hi => ?_⟩
  obtain ⟨h0, h1⟩ := ha.inside i hi
  have h := Arr.Is.at? (a := ⟨a.view.shape, (indices a.view.shape).map fun i =>
      notElem a.dtype (readBits (DType.itemsize a.dtype) a.buf (a.view.addr i))⟩)
    (nd := ⟨a.view.shape, fun i => notElem a.dtype (readBits (DType.itemsize a.dtype) a.buf (a.view.addr i))⟩) ⟨rfl, rfl⟩ (idx := i) hi
  rw [h]
  dsimp only
  rw [readBits_some h0 h1]
  have hl := bytesAt_length h0 h1
  have eget : a.nd.get i = bytesElem a.dtype (bytesAt a.buf (a.view.addr i) (DType.itemsize a.dtype)) := rfl
  rw [eget]
  generalize bytesAt a.buf (a.view.addr i) (DType.itemsize a.dtype) = bs at hl ⊢
  by_cases hb : a.dtype = .bool
  · left
    rw [hb] at hl ⊢
    exact ⟨_, rfl, bytesElem_bool hl, rfl⟩
  · right
    have hk : isIntegerKind a.dtype = true := by
      generalize a.dtype = d at *
      cases d <;> first | (exact False.elim ta) | rfl | (exact absurd rfl hb)
    rw [bytesElem_int hk hl]
    generalize bytesNat bs = m
    have e : ∀ s : Bool, ∀ w : Nat, 0 < w → ∀ x : BitVec w, intValue s (bitNot x) = (if s then 0 else 2 ^ w) - intValue s x - 1 := by
      intro s w hw x
      unfold intValue bitNot
      cases s
      · have := x.isLt
        simp only [Bool.false_eq_true, if_false, BitVec.toNat_not]
        have e : ((2 ^ w : Nat) : Int) = 2 ^ w := by push_cast; rfl
        rw [← e]
        generalize 2 ^ w = u at *
        omega
      · simp only [if_true]
        have hlt := x.isLt
        rw [BitVec.toInt_eq_msb_cond, BitVec.toInt_eq_msb_cond, BitVec.msb_not, BitVec.toNat_not]
        have hu : ∃ u : Nat, u = 2 ^ w := ⟨_, rfl⟩
        obtain ⟨u, hu⟩ := hu
        rw [← hu] at hlt ⊢
        have hu' : (2 : Int) ^ w = u := by rw [hu]; push_cast; rfl
        cases x.msb <;> simp [hw] <;> (first | rw [hu'] | skip) <;> omega
    generalize a.dtype = d at *
    cases d <;> first
      | (cases hk; done)
      | (refine ⟨_, _, _, rfl, rfl, ?_⟩
         show some (some (Elem.int (intValue _ (bitNot _)))) = _
         rw [e _ _ (by decide)]
         congr 3
         simp only [DType.isSigned, DType.itemsize, if_true, Bool.false_eq_true, if_false]
         omega)

example : bitwiseNot (rawOf .i8 [2] [5, 255]) = some (.i8, ⟨[2], [some (.int (-6)), some (.int 0)]⟩) ∧
    bitwiseNot (rawOf .u8 [1] [5]) = some (.u8, ⟨[1], [some (.int 250)]⟩) := by decide +kernel

/-! ### Reading outside the buffer -/

/-- C97 is false for operands of different sizes: as soon as an operand is a new array with smaller elements than the result, the
operation reads memory outside its buffer. -/
theorem C97_outside_buffer (op : BitOp) {a b : RawArr} (ha : Owns a) (hb : b.view.WF)
    (hlt : DType.itemsize a.dtype < DType.itemsize (promote a.dtype b.dtype)) {out : List Nat}
    (ho : IsBroadcast a.view.shape b.view.shape out) (hne : size out ≠ 0) {r : DType} {q : Arr (Option Elem)}
    (h : bitwise op a b = some (r, q)) : ∃ i, InShape out i ∧ q.at? i = some none := by
  obtain ⟨b1, -⟩ := broadcastsTo_of ho
  have hw : a.view.WF := by rw [ha.view]; exact View.WF.fresh _ _
  rw [bitwise_eq op hw hb ho] at h
  split at h
  case isFalse => cases h
  cases h
  have hs : 0 < size a.view.shape := by
    obtain ⟨i, hi, -⟩ := exists_rank (s := out) (r := 0) (Nat.pos_of_ne_zero hne)
    exact Nat.lt_of_le_of_lt (Nat.zero_le _) (rank_lt (sourceIdx_in b1 hi))
  obtain ⟨j, hj, hr⟩ := exists_rank (s := a.view.shape) (r := size a.view.shape - 1) (by omega)
  obtain ⟨i, hi, hsrc⟩ := exists_source b1 hne hj
  refine ⟨i, hi, ?_⟩
  have h := Arr.Is.at? (a := ⟨out, (indices out).map (bitAt op (promote a.dtype b.dtype) a b out)⟩)
    (nd := ⟨out, bitAt op (promote a.dtype b.dtype) a b out⟩) ⟨rfl, rfl⟩ (idx := i) hi
  rw [h]
  show some (bitAt op _ a b out i) = _
  unfold bitAt
  rw [hsrc]
  have : readBits (DType.itemsize (promote a.dtype b.dtype)) a.buf (a.view.addr j) = none := by
    unfold readBits
    rw [if_neg]
    rintro ⟨-, h2⟩
    rw [owns_addr ha hj, ha.buf, hr] at h2
    obtain ⟨m, hm⟩ : ∃ m, size a.view.shape = m + 1 := ⟨size a.view.shape - 1, by omega⟩
    rw [hm, Nat.add_sub_cancel, Nat.add_mul] at h2
    generalize DType.itemsize (promote a.dtype b.dtype) = n at *
    generalize m * DType.itemsize a.dtype = k at *
    push_cast at h2
    omega
  rw [this]
  rfl

example : bitwise .and (rawOf .u8 [3] [1, 2, 3]) (rawOf .u16 [1] [255, 255]) = some (.u16, ⟨[3], [some (.int 513), some (.int 770), none]⟩) ∧
    Owns (rawOf .u8 [3] [1, 2, 3]) := ⟨by decide +kernel, rawOf_owns rfl⟩

/-! ### Python integers -/

theorem viaF64_range (n : Int) : -2 ^ 63 ≤ viaF64 n ∧ viaF64 n ≤ 2 ^ 63 - 1 := by
  unfold viaF64 f64ToInt
  constructor
  · exact le_max_left _ _
  · exact max_le (by norm_num) (min_le_left _ _)

theorem fullInt64_owns (n : Int) : Owns (fullInt64 n) := ⟨rfl, by
  show (intBytes 8 (viaF64 n)).length = 8
  exact intBytes_length _ _⟩

theorem fullInt64_get (n : Int) : (fullInt64 n).nd.get [0] = .int (viaF64 n) := by
  have e : bytesAt (intBytes 8 (viaF64 n)) ((fullInt64 n).view.addr [0]) 8 = intBytes 8 (viaF64 n) := by
    show (List.drop 0 _).take 8 = _
    rw [List.drop_zero, List.take_of_length_le (by rw [intBytes_length])]
  show bytesElem .i64 (bytesAt (intBytes 8 (viaF64 n)) ((fullInt64 n).view.addr [0]) 8) = _
  rw [e]
  exact bytesElem_intBytes (viaF64_range n).1 (viaF64_range n).2

theorem scalar_get (n : Int) {s i : List Nat} (hs : s ≠ []) (hi : InShape s i) : ((fullInt64 n).nd.broadcast s).get i = .int (viaF64 n) := by
  rw [bcast_one_get (a := (fullInt64 n).nd) rfl hs hi]
  exact fullInt64_get n

/-- C97 (partial): `&`, `|` and `^` of an `int64` array with at least one dimension and a Python integer of at most `2 ^ 53` are exact, on
either side.  Missing: larger integers (`C97_scalar_counterexample`) and other dtypes (`C97_scalar_outside_buffer`, `C97_scalar_uint64`). -/
theorem C97_scalar_partial (reflected : Bool) {op : BitOp} {f : Bool → Bool → Bool} (hf : bitFun op = some f) {a : RawArr} (ha : Sound a)
    (ta : a.dtype = .i64) (hs : a.view.shape ≠ []) {n : Int} (hn : n.natAbs ≤ 2 ^ 53) :
    ∃ q, bitwiseDunder reflected op a n = some (.i64, q) ∧ q.shape = a.view.shape ∧ q.data.length = size a.view.shape ∧
      ∀ i, InShape a.view.shape i → ∃ x z, a.nd.get i = .int x ∧ q.at? i = some (some (.int z)) ∧ IsBitwise f x n z := by
  have hp : promote a.dtype (fullInt64 n).dtype = .i64 := by rw [ta]; rfl
  have ho : IsBroadcast a.view.shape (fullInt64 n).view.shape a.view.shape := isBroadcast_one hs
  obtain ⟨q, h1, h2, h3, h4⟩ := C97_bits_partial hf ha (owns_sound (fullInt64_owns n) (fun h => nomatch h)) (by rw [ta]; trivial) trivial
    (by rw [hp]; rfl) (by unfold SameSize; rw [hp, ta]; exact ⟨rfl, rfl⟩) ho
  have hd : bitwiseDunder reflected op a n = bitwise op a (fullInt64 n) := by
    unfold bitwiseDunder bitwiseScalar
    have : (2 : Nat) ^ 53 = 9007199254740992 := by norm_num
    rw [if_pos (by norm_num; omega)]
    have : (reflected && (decide (op = .shl) || decide (op = .shr))) = false := by
      cases op <;> first | (cases hf; done) | simp
    rw [this]; rfl
  rw [hp] at h1
  refine ⟨q, by rw [hd]; exact h1, h2, h3, fun i hi => ?_⟩
  obtain ⟨x, y, z, e1, e2, e3, e4⟩ := h4 i hi
  rw [show (a.nd.broadcast a.view.shape).get i = a.nd.get i from bcast_self (a := a.nd) rfl hi] at e1
  rw [scalar_get n hs hi, viaF64_exact hn] at e2
  cases e2
  obtain ⟨k0, k1⟩ := ha.inside i hi
  refine ⟨x, z, ?_, e3, e4⟩
  have eb : a.nd.get i = .int (intValue true (BitVec.ofNat (8 * 8) (bytesNat (bytesAt a.buf (a.view.addr i) 8)))) := by
    show bytesElem a.dtype (bytesAt a.buf (a.view.addr i) (DType.itemsize a.dtype)) = _
    rw [ta] at k1 ⊢
    exact bytesElem_int rfl (bytesAt_length k0 k1)
  rw [eb] at e1 ⊢
  cases e1
  rfl

example : bitwiseDunder true .or (rawOf .i64 [1] [4, 0, 0, 0, 0, 0, 0, 0]) 3 = some (.i64, ⟨[1], [some (.int 7)]⟩) ∧
    bitwiseDunder false .and (rawOf .i64 [1] [4, 0, 0, 0, 0, 0, 0, 0]) (-1) = some (.i64, ⟨[1], [some (.int 4)]⟩) := by decide +kernel

/-- C97 (partial): shifts of an `int64` array by a Python integer from 0 to 63, and of a Python integer of at most `2 ^ 53` by such an
array.  Missing: other amounts, larger integers and other dtypes. -/
theorem C97_scalar_shift_partial (reflected : Bool) {a : RawArr} (ha : Sound a) (ta : a.dtype = .i64) (hs : a.view.shape ≠ []) {n : Int}
    (hn : n.natAbs ≤ 2 ^ 53) :
    ∃ q p, bitwiseDunder reflected .shl a n = some (.i64, q) ∧ bitwiseDunder reflected .shr a n = some (.i64, p) ∧ q.shape = a.view.shape ∧
      p.shape = a.view.shape ∧ ∀ i, InShape a.view.shape i → ∃ x z w, (a.nd.get i).whole = some x ∧ q.at? i = some (some (.int z)) ∧
        p.at? i = some (some (.int w)) ∧ -2 ^ 63 ≤ z ∧ z ≤ 2 ^ 63 - 1 ∧
        (reflected = false → 0 ≤ n → n < 64 → 2 ^ 64 ∣ z - x * 2 ^ n.toNat ∧ w = x / 2 ^ n.toNat) ∧
        (reflected = true → 0 ≤ x → x < 64 → 2 ^ 64 ∣ z - n * 2 ^ x.toNat ∧ w = n / 2 ^ x.toNat) := by
  have hin : -2 ^ 63 ≤ n ∧ n ≤ 2 ^ 63 - 1 := by
    have : (2 : Nat) ^ 53 = 9007199254740992 := by norm_num
    norm_num
    omega
  have hsc := owns_sound (fullInt64_owns n) (fun h => nomatch h)
  cases reflected
  · have hp : promote a.dtype (fullInt64 n).dtype = .i64 := by rw [ta]; rfl
    have ho : IsBroadcast a.view.shape (fullInt64 n).view.shape a.view.shape := isBroadcast_one hs
    obtain ⟨q, p, h1, h2, h3, h4, h5⟩ := C97_shift_partial ha hsc (by rw [ta]; trivial) trivial
      (by rw [hp]; rfl) (by unfold SameSize; rw [hp, ta]; exact ⟨rfl, rfl⟩) (lo := -2 ^ 63) (hi := 2 ^ 63 - 1) (by rw [hp]; rfl) ho
    rw [hp] at h1 h2 h5
    refine ⟨q, p, (if_pos hin).trans h1, (if_pos hin).trans h2, h3, h4, fun i hi => ?_⟩
    obtain ⟨x, y, z, w, e1, e2, e3, e4, e5, e6, e7⟩ := h5 i hi
    rw [show (a.nd.broadcast a.view.shape).get i = a.nd.get i from bcast_self (a := a.nd) rfl hi] at e1
    rw [scalar_get n hs hi, viaF64_exact hn] at e2
    cases e2
    exact ⟨x, z, w, e1, e3, e4, e5, e6, fun _ => e7, fun h => nomatch h⟩
  · have hp : promote (fullInt64 n).dtype a.dtype = .i64 := by rw [ta]; rfl
    have ho : IsBroadcast (fullInt64 n).view.shape a.view.shape a.view.shape := isBroadcast_one' hs
    obtain ⟨q, p, h1, h2, h3, h4, h5⟩ := C97_shift_partial hsc ha trivial (by rw [ta]; trivial)
      (by rw [hp]; rfl) (by unfold SameSize; rw [hp, ta]; exact ⟨rfl, rfl⟩) (lo := -2 ^ 63) (hi := 2 ^ 63 - 1) (by rw [hp]; rfl) ho
    rw [hp] at h1 h2 h5
    refine ⟨q, p, (if_pos hin).trans h1, (if_pos hin).trans h2, h3, h4, fun i hi => ?_⟩
    obtain ⟨x, y, z, w, e1, e2, e3, e4, e5, e6, e7⟩ := h5 i hi
    rw [show (a.nd.broadcast a.view.shape).get i = a.nd.get i from bcast_self (a := a.nd) rfl hi] at e2
    rw [scalar_get n hs hi, viaF64_exact hn] at e1
    cases e1
    exact ⟨y, z, w, e2, e3, e4, e5, e6, fun h => (nomatch h), fun _ => e7⟩

example : bitwiseDunder false .shl (rawOf .i64 [1] [4, 0, 0, 0, 0, 0, 0, 0]) 3 = some (.i64, ⟨[1], [some (.int 32)]⟩) ∧
    bitwiseDunder true .shl (rawOf .i64 [1] [4, 0, 0, 0, 0, 0, 0, 0]) 3 = some (.i64, ⟨[1], [some (.int 48)]⟩) := by decide +kernel

/-- `2 ^ 53 + 1` is used as `2 ^ 53`, and an array without dimensions gets one. -/
theorem C97_scalar_counterexample :
    bitwiseDunder false .and (rawOf .i64 [1] [1, 0, 0, 0, 0, 0, 0, 0]) (2 ^ 53 + 1) = some (.i64, ⟨[1], [some (.int 0)]⟩) ∧
      bitwiseDunder false .and (rawOf .i64 [] [1, 0, 0, 0, 0, 0, 0, 0]) 1 = some (.i64, ⟨[1], [some (.int 1)]⟩) := by decide +kernel

/-- C97 is false for every new array of bools or integers of fewer than 64 bits and every Python integer, on either side: the operation
reads memory outside the array's buffer. -/
theorem C97_scalar_outside_buffer (reflected : Bool) (op : BitOp) {a : RawArr} (ha : Owns a) (ta : a.dtype.Whole)
    (hsz : DType.itemsize a.dtype < 8) (hs : a.view.shape ≠ []) (hne : size a.view.shape ≠ 0) {n : Int} (h0 : -2 ^ 63 ≤ n) (h1 : n ≤ 2 ^ 63 - 1)
    (hcomm : reflected = false ∨ (bitFun op).isSome) :
    ∃ q i, bitwiseDunder reflected op a n = some (.i64, q) ∧ InShape a.view.shape i ∧ q.at? i = some none := by
  have key : ∀ d ∈ wholeTypes, DType.itemsize d < 8 → promote d .i64 = .i64 := by decide +kernel
  have hp : promote a.dtype (fullInt64 n).dtype = .i64 := key _ (mem_wholeTypes ta) hsz
  have ho : IsBroadcast a.view.shape (fullInt64 n).view.shape a.view.shape := isBroadcast_one hs
  have hw : a.view.WF := by rw [ha.view]; exact View.WF.fresh _ _
  have hwf : (fullInt64 n).view.WF := View.WF.fresh _ _
  have hb : bitwise op a (fullInt64 n) = some (.i64, ⟨a.view.shape, (indices a.view.shape).map (bitAt op .i64 a (fullInt64 n) a.view.shape)⟩) := by
    rw [bitwise_eq op hw hwf ho, hp]
    exact if_pos (.inr rfl)
  have hd : bitwiseDunder reflected op a n = bitwise op a (fullInt64 n) := by
    unfold bitwiseDunder bitwiseScalar
    rw [if_pos ⟨h0, h1⟩]
    have : (reflected && (decide (op = .shl) || decide (op = .shr))) = false := by
      rcases hcomm with rfl | h
      · rfl
      · cases op <;> first | (cases h; done) | simp
    rw [this]; rfl
  obtain ⟨i, hi, hq⟩ := C97_outside_buffer op ha hwf (by rw [hp]; exact hsz) ho hne hb
  exact ⟨_, i, by rw [hd, hb], hi, hq⟩

example : bitwiseDunder false .and (rawOf .bool [1] [1]) 1 = some (.i64, ⟨[1], [none]⟩) ∧
    bitwiseDunder false .and (rawOf .i32 [2] [1, 0, 0, 0, 2, 0, 0, 0]) 255 = some (.i64, ⟨[2], [some (.int 1), none]⟩) ∧
    Owns (rawOf .i32 [2] [1, 0, 0, 0, 2, 0, 0, 0]) := ⟨by decide +kernel, by decide +kernel, rawOf_owns rfl⟩

/-- A `uint64` array with elements cannot be combined with any Python integer. -/
theorem C97_scalar_uint64 (reflected : Bool) (op : BitOp) {a : RawArr} (ha : a.view.WF) (ta : a.dtype = .u64) (hs : a.view.shape ≠ [])
    (hne : size a.view.shape ≠ 0) (n : Int) : bitwiseDunder reflected op a n = none := by
  have hwf : (fullInt64 n).view.WF := View.WF.fresh _ _
  unfold bitwiseDunder bitwiseScalar
  split
  · split
    · rw [bitwise_none_iff op hwf ha]
      exact .inr ⟨⟨_, isBroadcast_one' hs, hne⟩, by rw [ta]; rfl⟩
    · rw [bitwise_none_iff op ha hwf]
      exact .inr ⟨⟨_, isBroadcast_one hs, hne⟩, by rw [ta]; rfl⟩
  · rfl

example : bitwiseDunder false .and (rawOf .u64 [1] [1, 0, 0, 0, 0, 0, 0, 0]) 1 = none := by decide +kernel

end Props
