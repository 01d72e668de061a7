import Verif.Spec.Arith
import Verif.Model.Arith
import Verif.Lemmas.Arith
/-!
# C96: arithmetic of two arrays, and of an array and a Python number
-/

namespace Props
open Spec Rumpy

/-- The first dtype, in the order bool, integers, floats, complex numbers and by size within them, that accepts both operands. -/
def IsJoin (a b j : DType) : Prop :=
  ∃ pre post, numericOrder = pre ++ j :: post ∧ Accepts a j ∧ Accepts b j ∧ ∀ k ∈ pre, ¬ (Accepts a k ∧ Accepts b k)

/-- NumPy's dtype of an operation: the join; a quotient is at least a float. -/
def IsArithType (op : ArithOp) (a b r : DType) : Prop :=
  ∃ j, IsJoin a b j ∧ r = if op = .div ∧ j.format = none then .f64 else j

/-- The elements of an array have its dtype. -/
def Typed (d : DType) (h : Held Elem) : Prop := ∀ i, InShape h.view.shape i → (h.nd.get i).OfType d

/-- Some `powf`, for examples that do not use it. -/
def noPow : Powf := ⟨fun x _ => x, fun x _ => x⟩

/-- An array in memory, for examples. -/
def stored (d : DType) (s : List Nat) (xs : List Elem) : Held Elem := Held.of ⟨s, xs⟩ (DType.itemsize d) (zeroElem d)

theorem typed_broadcast {d : DType} {h : Held Elem} (ht : Typed d h) {s : List Nat} (hb : BroadcastsTo h.view.shape s) {i : List Nat}
    (hi : InShape s i) : ((h.nd.broadcast s).get i).OfType d := by
  obtain ⟨j, hj, e⟩ := broadcast_mem hb hi
  rw [e]
  exact ht j hj

/-! ### Errors and dtypes -/

/-- C96: an operation is refused exactly when the shapes do not broadcast. -/
theorem C96_error_iff (out : Bool) (pw : Powf) (neg : Bool) (op : ArithOp) {a b : DType} (ha : a.Real) (hb : b.Real) {h g : Held Elem}
    (hw : h.view.WF) (gw : g.view.WF) :
    arith out pw neg op a b h g = .error ↔ ¬ ∃ s, IsBroadcast h.view.shape g.view.shape s :=
  arith_error_iff out pw neg op ha hb hw gw

example : arith false noPow false .add .i8 .i8 (stored .i8 [2] [.int 1, .int 2]) (stored .i8 [3] [.int 1, .int 2, .int 3]) = .error :=
  (C96_error_iff false noPow false .add (by trivial) (by trivial) (held_of_wf _ _ _) (held_of_wf _ _ _)).2 (by
    rintro ⟨s, h⟩
    have := broadcastShapes_iff.2 h
    have e : broadcastShapes [2] [3] = none := by decide
    have : broadcastShapes [2] [3] = some s := this
    rw [e] at this; cases this)

/-- Where the code does not follow NumPy's dtypes (see the counterexamples). -/
def LacksArith (op : ArithOp) (a b : DType) : Prop :=
  (a = .bool ∧ b = .bool ∧ op ∉ [ArithOp.add, .mul, .maximum, .minimum]) ∨
    (op = .div ∧ ((a = .bool ∧ b ∈ [DType.i8, .u8, .i16, .u16]) ∨ (b = .bool ∧ a ∈ [DType.i8, .u8, .i16, .u16])))

instance (op : ArithOp) (a b : DType) : Decidable (LacksArith op a b) := by unfold LacksArith; infer_instance

theorem type_table : ∀ a ∈ realTypes, ∀ b ∈ realTypes, ∀ op ∈ [ArithOp.add, .sub, .mul, .div, .pow, .mod, .floorDiv, .maximum, .minimum],
    LacksArith op a b ∨ resultOf op a b = if op = .div ∧ (promote a b).format = none then .f64 else promote a b := by
  decide +kernel

/-- C96 (partial): the dtype of the result is NumPy's, and the shape is the broadcast shape.  Missing: two bools except for `+`, `*`,
`maximum` and `minimum`, and a quotient of a bool and an 8- or 16-bit integer. -/
theorem C96_type_partial (out : Bool) (pw : Powf) (neg : Bool) (op : ArithOp) {a b : DType} (ha : a.Real) (hb : b.Real)
    (hl : ¬ LacksArith op a b) {h g : Held Elem} (hw : h.view.WF) (gw : g.view.WF) {r : DType} {q : Arr Elem}
    (hq : arith out pw neg op a b h g = .ok (r, q)) : IsArithType op a b r ∧ IsBroadcast h.view.shape g.view.shape q.shape := by
  have hs : ∃ s, IsBroadcast h.view.shape g.view.shape s := by
    by_contra hc
    rw [(C96_error_iff out pw neg op ha hb hw gw).2 hc] at hq
    cases hq
  obtain ⟨s, ho⟩ := hs
  have hf : ∀ i, InShape s i → ∃ e, elemOp out pw neg op a b ((h.nd.broadcast s).get i) ((g.nd.broadcast s).get i) = .ok e := by
    intro i hi
    refine outcome_ok (elemOp_ne_error _ _ _ _ _ _ _ _) ?_
    intro hc
    rw [arith_panic out pw neg op ha hb hw gw ho ⟨i, hi, hc⟩] at hq
    cases hq
  obtain ⟨q', h1, h2, -⟩ := arith_ok out pw neg op ha hb hw gw ho hf
  rw [h1] at hq
  cases hq
  refine ⟨⟨promote a b, C28_promote (real_numeric ha) (real_numeric hb), ?_⟩, by rw [h2]; exact ho⟩
  rcases type_table a (mem_realTypes ha) b (mem_realTypes hb) op (by cases op <;> simp) with h | h
  · exact absurd h hl
  · exact h

example : arith false noPow false .div .i8 .f16 (stored .i8 [1] [.int 1]) (stored .f16 [2] [.flt (.num 2), .flt (.num 4)]) =
    .ok (.f16, ⟨[2], [.flt (.num (1 / 2)), .flt (.num (1 / 4))]⟩) ∧ ¬ LacksArith .div .i8 .f16 := ⟨by decide +kernel, by decide⟩

/-! ### Integers -/

/-- C96: `+`, `-`, `*`, `maximum` and `minimum` of integers of one dtype are exact modulo the number of its values, so exact whenever
the result fits. -/
theorem C96_integers (out : Bool) (pw : Powf) (neg : Bool) {op : ArithOp} {f : Int → Int → Int} (hf : op.whole = some f) {d : DType}
    (hd : isIntegerKind d = true) {lo hi : Int} (hr : d.intRange = some (lo, hi)) {h g : Held Elem} (hw : h.view.WF) (gw : g.view.WF)
    (ht : Typed d h) (gt : Typed d g) {s : List Nat} (ho : IsBroadcast h.view.shape g.view.shape s) :
    ∃ q, arith out pw neg op d d h g = .ok (d, q) ∧ q.shape = s ∧ ∀ i, InShape s i → ∃ m n k,
      (h.nd.broadcast s).get i = .int m ∧ (g.nd.broadcast s).get i = .int n ∧ q.at? i = some (.int k) ∧ lo ≤ k ∧ k ≤ hi ∧
      (hi - lo + 1) ∣ k - f m n ∧ (lo ≤ f m n → f m n ≤ hi → k = f m n) := by
  obtain ⟨b1, b2⟩ := broadcastsTo_of ho
  have hdr : d.Real := by cases d <;> first | (cases hd; done) | trivial
  have key := fun i (hi : InShape s i) => elemOp_whole out pw neg hf hd hr (typed_broadcast ht b1 hi) (typed_broadcast gt b2 hi)
  obtain ⟨q, h1, h2, -, h4⟩ := arith_ok out pw neg op hdr hdr hw gw ho (fun i hi => by
    obtain ⟨m, n, k, _, _, h, _⟩ := key i hi
    exact ⟨_, h⟩)
  have hres : resultOf op d d = d := by
    rw [resultOf_same (by rintro rfl; cases hf)]; exact C28_idem d
  rw [hres] at h1
  have hpos0 : 0 < hi - lo + 1 := by
    obtain ⟨lo', hi', hr', hsz, -⟩ := int_kind hd
    rw [hr] at hr'
    cases hr'
    rw [hsz]
    positivity
  generalize hM : hi - lo + 1 = M at *
  refine ⟨q, h1, h2, fun i hin => ?_⟩
  obtain ⟨m, n, k, e1, e2, e3, e4, e5, e6⟩ := key i hin
  obtain ⟨e, e7, e8⟩ := h4 i hin
  rw [e3] at e7
  cases e7
  refine ⟨m, n, k, e1, e2, e8, e4, e5, e6, fun l1 l2 => ?_⟩
  obtain ⟨t, ht⟩ := e6
  have hpos := hpos0
  have : t = 0 := by
    rcases lt_trichotomy t 0 with h | h | h
    · nlinarith
    · exact h
    · nlinarith
  subst this
  rw [mul_zero] at ht
  omega

example : arith false noPow false .add .u8 .u8 (stored .u8 [2] [.int 200, .int 3]) (stored .u8 [1] [.int 100]) =
    .ok (.u8, ⟨[2], [.int 44, .int 103]⟩) ∧ isIntegerKind .u8 = true ∧ DType.u8.intRange = some (0, 255) ∧ ((255 : Int) - 0 + 1) ∣ 44 - (200 + 100) :=
  ⟨by decide +kernel, rfl, rfl, by decide⟩

/-- C96 (partial): integers (and bools) of two dtypes with an integer result are exact as long as operands and result are at most
`2 ^ 53` and the result fits. -/
theorem C96_mixed_integers_partial (out : Bool) (pw : Powf) (neg : Bool) {op : ArithOp} {f : Int → Int → Int} (hf : op.whole = some f)
    {a b : DType} (ha : a.Real) (hb : b.Real) (hab : a ≠ b) (hri : isIntegerKind (promote a b) = true) {lo hi : Int}
    (hr : (promote a b).intRange = some (lo, hi)) {h g : Held Elem} (hw : h.view.WF) (gw : g.view.WF) {s : List Nat}
    (ho : IsBroadcast h.view.shape g.view.shape s)
    (hv : ∀ i, InShape s i → ∃ m n, ((h.nd.broadcast s).get i).whole = some m ∧ ((g.nd.broadcast s).get i).whole = some n ∧
      m.natAbs ≤ 2 ^ 53 ∧ n.natAbs ≤ 2 ^ 53 ∧ (f m n).natAbs ≤ 2 ^ 53 ∧ lo ≤ f m n ∧ f m n ≤ hi) :
    ∃ q, arith out pw neg op a b h g = .ok (promote a b, q) ∧ q.shape = s ∧ ∀ i, InShape s i → ∃ m n,
      ((h.nd.broadcast s).get i).whole = some m ∧ ((g.nd.broadcast s).get i).whole = some n ∧ q.at? i = some (.int (f m n)) := by
  have key : ∀ i, InShape s i → ∃ m n, ((h.nd.broadcast s).get i).whole = some m ∧ ((g.nd.broadcast s).get i).whole = some n ∧
      elemOp out pw neg op a b ((h.nd.broadcast s).get i) ((g.nd.broadcast s).get i) = .ok (.int (f m n)) := by
    intro i hi
    obtain ⟨m, n, h1, h2, h3, h4, h5, h6, h7⟩ := hv i hi
    exact ⟨m, n, h1, h2, elemOp_mixed_whole out pw neg hf hab hri hr h1 h2 h3 h4 h5 h6 h7⟩
  obtain ⟨q, h1, h2, -, h4⟩ := arith_ok out pw neg op ha hb hw gw ho (fun i hi => by
    obtain ⟨m, n, _, _, h⟩ := key i hi
    exact ⟨_, h⟩)
  rw [resultOf_same (by rintro rfl; cases hf)] at h1
  refine ⟨q, h1, h2, fun i hi => ?_⟩
  obtain ⟨m, n, e1, e2, e3⟩ := key i hi
  obtain ⟨e, e7, e8⟩ := h4 i hi
  rw [e3] at e7
  cases e7
  exact ⟨m, n, e1, e2, e8⟩

example : arith false noPow false .mul .u8 .i8 (stored .u8 [2] [.int 200, .int 3]) (stored .i8 [1] [.int (-100)]) =
    .ok (.i16, ⟨[2], [.int (-20000), .int (-300)]⟩) := by decide +kernel

/-- C96: `//` and `%` of integers of one signed dtype panic exactly when some element divides the smallest number by `-1`. -/
theorem C96_panic_iff (out : Bool) (pw : Powf) (neg : Bool) {op : ArithOp} (hop : op = .floorDiv ∨ op = .mod) {d : DType}
    (hd : DType.isSigned d = true) {lo hi : Int} (hr : d.intRange = some (lo, hi)) {h g : Held Elem} (hw : h.view.WF) (gw : g.view.WF)
    (ht : Typed d h) (gt : Typed d g) {s : List Nat} (ho : IsBroadcast h.view.shape g.view.shape s) :
    arith out pw neg op d d h g = .panic ↔
      ∃ i, InShape s i ∧ (h.nd.broadcast s).get i = .int lo ∧ (g.nd.broadcast s).get i = .int (-1) := by
  obtain ⟨b1, b2⟩ := broadcastsTo_of ho
  have hk : isIntegerKind d = true := by unfold isIntegerKind; rw [hd]; rfl
  have hdr : d.Real := by cases d <;> first | (cases hd; done) | trivial
  obtain ⟨lo', hi', hr', hsz, hpos, hrange⟩ := int_kind hk
  rw [hr] at hr'
  cases hr'
  have hlo : lo = -2 ^ (DType.intBits d - 1) ∧ (-1 : Int) ≥ lo ∧ lo ≤ hi ∧ -1 ≤ hi := by
    cases d <;> first | (cases hd; done) | (cases hr; decide)
  have elem : ∀ m n : Int, lo ≤ m → m ≤ hi → lo ≤ n → n ≤ hi →
      (elemOp out pw neg op d d (.int m) (.int n) = .panic ↔ m = lo ∧ n = -1) := by
    intro m n m1 m2 n1 n2
    have hnd : op ≠ .div := by rcases hop with rfl | rfl <;> decide
    rw [elemOp_same hnd]
    have em := intValue_ofInt hpos ((hrange m).2 ⟨m1, m2⟩)
    have en := intValue_ofInt hpos ((hrange n).2 ⟨n1, n2⟩)
    rw [hd] at em en
    obtain ⟨p1, p2⟩ := C33_panic_iff out (BitVec.ofInt (DType.intBits d) m) (BitVec.ofInt (DType.intBits d) n)
    have hcond : (BitVec.ofInt (DType.intBits d) n ≠ 0#_ ∧ BitVec.ofInt (DType.intBits d) m = BitVec.intMin _ ∧
        BitVec.ofInt (DType.intBits d) n = -1#_) ↔ m = lo ∧ n = -1 := by
      have hmin : intValue true (BitVec.intMin (DType.intBits d)) = lo := by
        cases d <;> first | (cases hd; done) | (cases hr; decide)
      have hneg : intValue true (-1#(DType.intBits d)) = -1 := by
        cases d <;> first | (cases hd; done) | decide
      have hz : intValue true (0#(DType.intBits d)) = 0 := by
        cases d <;> first | (cases hd; done) | decide
      constructor
      · rintro ⟨_, c2, c3⟩
        rw [c2] at em
        rw [c3] at en
        exact ⟨by rw [← em, hmin], by rw [← en, hneg]⟩
      · rintro ⟨rfl, rfl⟩
        have inj : ∀ x y : BitVec (DType.intBits d), intValue true x = intValue true y → x = y := by
          intro x y hxy
          exact BitVec.eq_of_toInt_eq hxy
        refine ⟨?_, inj _ _ (by rw [em, hmin]), inj _ _ (by rw [en, hneg])⟩
        intro hc
        rw [hc, hz] at en
        cases en
    have hstep : ∀ o, arithInt op = some o →
        (sameElem out pw neg op d (.int m) (.int n) = .panic ↔
          intBinary out true o (BitVec.ofInt (DType.intBits d) m) (BitVec.ofInt (DType.intBits d) n) = .panic) := by
      intro o ho
      show intElem out op d m n = _ ↔ _
      unfold intElem
      rw [ho, hd]
      dsimp only
      cases intBinary out true o (BitVec.ofInt (DType.intBits d) m) (BitVec.ofInt (DType.intBits d) n) <;> simp
    rcases hop with rfl | rfl
    · rw [hstep .floorDiv rfl, p1, hcond]
    · rw [hstep .mod rfl, p2, hcond]
  have elems : ∀ i, InShape s i → ∃ m n, (h.nd.broadcast s).get i = .int m ∧ (g.nd.broadcast s).get i = .int n ∧
      (elemOp out pw neg op d d ((h.nd.broadcast s).get i) ((g.nd.broadcast s).get i) = .panic ↔ m = lo ∧ n = -1) := by
    intro i hi
    obtain ⟨m, em, m1, m2⟩ := ofType_int hk (typed_broadcast ht b1 hi) hr
    obtain ⟨n, en, n1, n2⟩ := ofType_int hk (typed_broadcast gt b2 hi) hr
    refine ⟨m, n, em, en, ?_⟩
    rw [em, en]
    exact elem m n m1 m2 n1 n2
  constructor
  · intro hp
    by_contra hc
    push Not at hc
    obtain ⟨q, h1, -⟩ := arith_ok out pw neg op hdr hdr hw gw ho (fun i hi => by
      obtain ⟨m, n, em, en, e⟩ := elems i hi
      refine outcome_ok (elemOp_ne_error _ _ _ _ _ _ _ _) (fun hx => ?_)
      obtain ⟨rfl, rfl⟩ := e.1 hx
      exact hc i hi em en)
    rw [h1] at hp
    cases hp
  · rintro ⟨i, hi, e1, e2⟩
    refine arith_panic out pw neg op hdr hdr hw gw ho ⟨i, hi, ?_⟩
    obtain ⟨m, n, em, en, e⟩ := elems i hi
    rw [e1] at em
    rw [e2] at en
    cases em
    cases en
    exact e.2 ⟨rfl, rfl⟩

example : arith false noPow false .floorDiv .i8 .i8 (stored .i8 [2] [.int 5, .int (-128)]) (stored .i8 [1] [.int (-1)]) = .panic ∧
    arith false noPow false .floorDiv .i8 .i8 (stored .i8 [2] [.int 5, .int (-127)]) (stored .i8 [1] [.int (-1)]) =
      .ok (.i8, ⟨[2], [.int (-5), .int 127]⟩) := ⟨by decide +kernel, by decide +kernel⟩

/-- C96: `//` and `%` of integers of one unsigned dtype are floor division; dividing by zero gives zero. -/
theorem C96_floor_unsigned (out : Bool) (pw : Powf) (neg : Bool) {d : DType} (hd : DType.isUnsigned d = true) {h g : Held Elem}
    (hw : h.view.WF) (gw : g.view.WF) (ht : Typed d h) (gt : Typed d g) {s : List Nat} (ho : IsBroadcast h.view.shape g.view.shape s) :
    ∃ q r, arith out pw neg .floorDiv d d h g = .ok (d, q) ∧ arith out pw neg .mod d d h g = .ok (d, r) ∧ q.shape = s ∧ r.shape = s ∧
      ∀ i, InShape s i → ∃ m n k t, (h.nd.broadcast s).get i = .int m ∧ (g.nd.broadcast s).get i = .int n ∧
        q.at? i = some (.int k) ∧ r.at? i = some (.int t) ∧ (n ≠ 0 → IsFloorDiv m n k t) ∧ (n = 0 → k = 0 ∧ t = 0) := by
  obtain ⟨b1, b2⟩ := broadcastsTo_of ho
  have hk : isIntegerKind d = true := by unfold isIntegerKind; rw [hd]; simp
  have hsg : DType.isSigned d = false := by cases d <;> first | (cases hd; done) | rfl
  have hdr : d.Real := by cases d <;> first | (cases hd; done) | trivial
  obtain ⟨lo, hi, hr, hsz, hpos, hrange⟩ := int_kind hk
  have elem : ∀ m n : Int, lo ≤ m → m ≤ hi → lo ≤ n → n ≤ hi → ∃ k t, elemOp out pw neg .floorDiv d d (.int m) (.int n) = .ok (.int k) ∧
      elemOp out pw neg .mod d d (.int m) (.int n) = .ok (.int t) ∧ (n ≠ 0 → IsFloorDiv m n k t) ∧ (n = 0 → k = 0 ∧ t = 0) := by
    intro m n m1 m2 n1 n2
    rw [elemOp_same (by decide), elemOp_same (by decide)]
    have em := intValue_ofInt hpos ((hrange m).2 ⟨m1, m2⟩)
    have en := intValue_ofInt hpos ((hrange n).2 ⟨n1, n2⟩)
    rw [hsg] at em en
    by_cases hn : n = 0
    · subst hn
      obtain ⟨z1, z2⟩ := C33_div_zero out (DType.isSigned d) (BitVec.ofInt (DType.intBits d) m)
      have hz : BitVec.ofInt (DType.intBits d) 0 = 0#_ := by simp
      refine ⟨_, _, sameElem_int (o := .floorDiv) rfl (by rw [hz]; exact z1), sameElem_int (o := .mod) rfl (by rw [hz]; exact z2),
        fun h => absurd rfl h, fun _ => ?_⟩
      rw [hsg]
      simp [intValue]
    · have hb : BitVec.ofInt (DType.intBits d) n ≠ 0#_ := by
        intro hc
        rw [hc] at en
        simp [intValue] at en
        exact hn en.symm
      obtain ⟨q, r, c1, c2, c3⟩ := C33_divmod_unsigned out (BitVec.ofInt (DType.intBits d) m) _ hb
      rw [em, en] at c3
      refine ⟨_, _, sameElem_int (o := .floorDiv) rfl (by rw [hsg]; exact c1), sameElem_int (o := .mod) rfl (by rw [hsg]; exact c2),
        fun _ => ?_, fun h => absurd h hn⟩
      rw [hsg]
      exact c3
  have elems : ∀ i, InShape s i → ∃ m n k t, (h.nd.broadcast s).get i = .int m ∧ (g.nd.broadcast s).get i = .int n ∧
      elemOp out pw neg .floorDiv d d ((h.nd.broadcast s).get i) ((g.nd.broadcast s).get i) = .ok (.int k) ∧
      elemOp out pw neg .mod d d ((h.nd.broadcast s).get i) ((g.nd.broadcast s).get i) = .ok (.int t) ∧
      (n ≠ 0 → IsFloorDiv m n k t) ∧ (n = 0 → k = 0 ∧ t = 0) := by
    intro i hi
    obtain ⟨m, em, m1, m2⟩ := ofType_int hk (typed_broadcast ht b1 hi) hr
    obtain ⟨n, en, n1, n2⟩ := ofType_int hk (typed_broadcast gt b2 hi) hr
    obtain ⟨k, t, c⟩ := elem m n m1 m2 n1 n2
    refine ⟨m, n, k, t, em, en, ?_⟩
    rw [em, en]
    exact c
  obtain ⟨q, h1, h2, -, h4⟩ := arith_ok out pw neg .floorDiv hdr hdr hw gw ho (fun i hi => by
    obtain ⟨m, n, k, t, _, _, e, _⟩ := elems i hi
    exact ⟨_, e⟩)
  obtain ⟨r, k1, k2, -, k4⟩ := arith_ok out pw neg .mod hdr hdr hw gw ho (fun i hi => by
    obtain ⟨m, n, k, t, _, _, _, e, _⟩ := elems i hi
    exact ⟨_, e⟩)
  rw [resultOf_same (by decide), C28_idem] at h1 k1
  refine ⟨q, r, h1, k1, h2, k2, fun i hi => ?_⟩
  obtain ⟨m, n, k, t, c1, c2, c3, c4, c5, c6⟩ := elems i hi
  obtain ⟨e, e7, e8⟩ := h4 i hi
  obtain ⟨e', e9, e10⟩ := k4 i hi
  rw [c3] at e7
  cases e7
  rw [c4] at e9
  cases e9
  exact ⟨m, n, k, t, c1, c2, e8, e10, c5, c6⟩

example : arith false noPow false .floorDiv .u8 .u8 (stored .u8 [2] [.int 200, .int 3]) (stored .u8 [2] [.int 7, .int 0]) =
    .ok (.u8, ⟨[2], [.int 28, .int 0]⟩) := by decide +kernel

/-! ### Floats -/

/-- C96: when the result is a float, every element of `+`, `-`, `*` and `/` is the exact result, rounded, of the two elements rounded
to the dtype of the result; for 64-bit integers and float64 this is the only place where an operand is rounded. -/
theorem C96_floats (out : Bool) (pw : Powf) (neg : Bool) {op : ArithOp} (hop : op ∈ [ArithOp.add, .sub, .mul, .div]) {a b : DType}
    (ha : a.Real) (hb : b.Real) (hl : ¬ LacksArith op a b) {r : DType} (hty : IsArithType op a b r) {p : Nat} {lo hi : Int}
    (hfm : r.format = some (p, lo, hi)) {h g : Held Elem} (hw : h.view.WF) (gw : g.view.WF) (ht : Typed a h) (gt : Typed b g) {s : List Nat}
    (ho : IsBroadcast h.view.shape g.view.shape s) :
    ∃ q, arith out pw neg op a b h g = .ok (r, q) ∧ q.shape = s ∧ ∀ i, InShape s i → ∃ u v u' v' w,
      ((h.nd.broadcast s).get i).parts = some (u, .num 0) ∧ ((g.nd.broadcast s).get i).parts = some (v, .num 0) ∧
      IsRounding p lo hi u u' ∧ IsRounding p lo hi v v' ∧ q.at? i = some (.flt w) ∧ IsArith p lo hi op u' v' w := by
  obtain ⟨b1, b2⟩ := broadcastsTo_of ho
  have hres : resultOf op a b = r := by
    obtain ⟨j, ⟨pre, post, e1, e2, e3, e4⟩, e5⟩ := hty
    obtain ⟨pre', post', f1, f2, f3, f4⟩ := C28_promote (real_numeric ha) (real_numeric hb)
    have hj : j = promote a b := by
      rw [e1] at f1
      rcases List.append_eq_append_iff.1 f1 with ⟨l, h1, h2⟩ | ⟨l, h1, h2⟩
      · cases l with
        | nil => simp at h2; exact h2.1
        | cons z zs =>
          simp at h2
          exact absurd ⟨e2, e3⟩ (f4 j (by rw [h1, h2.1]; simp))
      · cases l with
        | nil => simp at h2; exact h2.1.symm
        | cons z zs =>
          simp at h2
          exact absurd ⟨f2, f3⟩ (e4 (promote a b) (by rw [h1, h2.1]; simp))
    rw [e5, hj]
    rcases type_table a (mem_realTypes ha) b (mem_realTypes hb) op (by cases op <;> simp) with h | h
    · exact absurd h hl
    · exact h
  have hfl : DType.isFloat (resultOf op a b) = true := by
    have h1 : (resultOf op a b).Real := by
      have key : ∀ a ∈ realTypes, ∀ b ∈ realTypes, ∀ op ∈ [ArithOp.add, .sub, .mul, .div], (resultOf op a b).Real := by decide +kernel
      exact key a (mem_realTypes ha) b (mem_realTypes hb) op hop
    rw [hres] at h1 ⊢
    cases r <;> first | exact h1.elim | (cases hfm; done) | rfl
  have key := fun i (hi : InShape s i) => elemOp_float out pw neg hop ha hb hfl (by rw [hres]; exact hfm) (typed_broadcast ht b1 hi)
    (typed_broadcast gt b2 hi)
  obtain ⟨q, h1, h2, -, h4⟩ := arith_ok out pw neg op ha hb hw gw ho (fun i hi => by
    obtain ⟨_, _, _, _, w, _, _, _, _, h, _⟩ := key i hi
    exact ⟨_, h⟩)
  rw [hres] at h1
  refine ⟨q, h1, h2, fun i hi => ?_⟩
  obtain ⟨u, v, u', v', w, c1, c2, c3, c4, c5, c6⟩ := key i hi
  obtain ⟨e, e7, e8⟩ := h4 i hi
  rw [c5] at e7
  cases e7
  exact ⟨u, v, u', v', w, c1, c2, c3, c4, e8, c6⟩

example : arith false noPow false .mul .i64 .f32 (stored .i64 [1] [.int (2 ^ 53 + 1)]) (stored .f32 [2] [.flt (.num (1 / 2)), .flt .posInf]) =
    .ok (.f64, ⟨[2], [.flt (.num (2 ^ 52)), .flt .posInf]⟩) ∧ ¬ LacksArith .mul .i64 .f32 := ⟨by decide +kernel, by decide⟩

/-- C96: `maximum` and `minimum` with a float result give one of the two elements, NaN if either is NaN. -/
theorem C96_maximum (out : Bool) (pw : Powf) (neg : Bool) {a b : DType} (ha : a.Real) (hb : b.Real) {r : DType} (hr : promote a b = r)
    (hrr : r.Real) {p : Nat} {lo hi : Int} (hfm : r.format = some (p, lo, hi)) {h g : Held Elem} (hw : h.view.WF) (gw : g.view.WF)
    (ht : Typed a h) (gt : Typed b g) {s : List Nat} (ho : IsBroadcast h.view.shape g.view.shape s) :
    ∃ q q', arith out pw neg .maximum a b h g = .ok (r, q) ∧ arith out pw neg .minimum a b h g = .ok (r, q') ∧ q.shape = s ∧ q'.shape = s ∧
      ∀ i, InShape s i → ∃ u v u' v' w w', ((h.nd.broadcast s).get i).parts = some (u, .num 0) ∧
        ((g.nd.broadcast s).get i).parts = some (v, .num 0) ∧ IsRounding p lo hi u u' ∧ IsRounding p lo hi v v' ∧
        q.at? i = some (.flt w) ∧ q'.at? i = some (.flt w') ∧ (u' = .nan ∨ v' = .nan → w = .nan ∧ w' = .nan) ∧
        (u' ≠ .nan → v' ≠ .nan → IsLarger u' v' w ∧ IsSmaller u' v' w') := by
  obtain ⟨b1, b2⟩ := broadcastsTo_of ho
  subst hr
  have hfl : DType.isFloat (promote a b) = true := by
    revert hfm hrr
    generalize promote a b = r
    intro h1 h2
    cases r <;> first | exact h1.elim | (cases h2; done) | rfl
  have key := fun i (hi : InShape s i) => elemOp_maxmin out pw neg ha hb hfl hfm (typed_broadcast ht b1 hi) (typed_broadcast gt b2 hi)
  obtain ⟨q, h1, h2, -, h4⟩ := arith_ok out pw neg .maximum ha hb hw gw ho (fun i hi => by
    obtain ⟨_, _, _, _, w, _, _, _, _, _, h, _⟩ := key i hi
    exact ⟨_, h⟩)
  obtain ⟨q', k1, k2, -, k4⟩ := arith_ok out pw neg .minimum ha hb hw gw ho (fun i hi => by
    obtain ⟨_, _, _, _, w, _, _, _, _, _, _, h, _⟩ := key i hi
    exact ⟨_, h⟩)
  rw [resultOf_same (by decide)] at h1 k1
  refine ⟨q, q', h1, k1, h2, k2, fun i hi => ?_⟩
  obtain ⟨u, v, u', v', w, w', c1, c2, c3, c4, c5, c6, c7, c8⟩ := key i hi
  obtain ⟨e, e7, e8⟩ := h4 i hi
  obtain ⟨e', e9, e10⟩ := k4 i hi
  rw [c5] at e7
  cases e7
  rw [c6] at e9
  cases e9
  exact ⟨u, v, u', v', w, w', c1, c2, c3, c4, e8, e10, c7, c8⟩

example : arith false noPow false .maximum .i8 .f16 (stored .i8 [1] [.int 1]) (stored .f16 [2] [.flt (.num 2), .flt .nan]) =
    .ok (.f16, ⟨[2], [.flt (.num 2), .flt .nan]⟩) := by decide +kernel

theorem div_zero_elem (out : Bool) (pw : Powf) (neg : Bool) {a b : DType} (ha : a.Real) (hb : b.Real)
    (hab : (a = b ∧ DType.isFloat a = true) ∨ (isIntegerKind a = true ∧ isIntegerKind b = true)) {x y : Elem} (hx : x.OfType a) (hy : y.OfType b)
    (hy0 : y.number = some (0, 0)) :
    ∃ u w, x.parts = some (u, .num 0) ∧ elemOp out pw neg .div a b x y = .ok (.flt w) ∧ (w = .nan ↔ u = .nan ∨ u = .num 0) ∧
      (w ≠ .nan → w.Infinite) := by
  have hwk : workL true a b = workL true b a ∧ DType.isFloat (workL true a b) = true := by
    rcases hab with ⟨rfl, hf⟩ | ⟨h1, h2⟩
    · refine ⟨rfl, ?_⟩
      unfold workL
      have : isIntegerKind a = false := by cases a <;> first | (cases hf; done) | rfl
      rw [this]
      exact hf
    · unfold workL
      rw [h1, h2]
      exact ⟨rfl, rfl⟩
  obtain ⟨hw, hf⟩ := hwk
  have hpr : promote (workL true a b) (workL true b a) = workL true a b := by rw [← hw]; exact C28_idem _
  obtain ⟨p, lo, hi, hfm⟩ : ∃ p lo hi, (workL true a b).format = some (p, lo, hi) := by
    rcases isFloat_cases hf with h | h | h <;> rw [h] <;> exact ⟨_, _, _, rfl⟩
  obtain ⟨u, u', hu, hru, hiu, hfu, hsu⟩ := operand_float (div := true) ha hb (by rw [hpr]; exact hf) (by rw [hpr]; exact hfm) hx
  obtain ⟨v, v', hv, hrv, hiv, hfv, hsv⟩ := operand_float (div := true) (b := a) hb ha (by rw [← hw, C28_idem]; exact hf)
    (by rw [← hw, C28_idem]; exact hfm) hy
  have hvz : v = .num 0 := by
    have := parts_of_number hy0
    rw [hv] at this
    injection this with this
    injection this
  have hlh : lo ≤ hi := by
    rcases isFloat_cases hf with h | h | h <;> rw [h] at hfm <;> cases hfm <;> norm_num
  have hround0 : ∀ z, IsRounding p lo hi (.num 0) z → z = .num 0 := by
    intro z hz
    have h0 : IsFloat p lo hi 0 := Props.isFloat_zero hlh
    cases z with
    | num t =>
      have := hz.2 0 h0
      simp at this
      rw [this]
    | nan => exact hz.elim
    | posInf => exact absurd (hz 0 h0) (lt_irrefl _)
    | negInf => exact absurd (hz 0 h0) (lt_irrefl _)
  have hv0 : v' = .num 0 := hround0 v' (hvz ▸ hiv)
  have huz : u' = .num 0 ↔ u = .num 0 := by
    constructor
    · rintro rfl
      rcases hab with ⟨rfl, hfa⟩ | ⟨h1, h2⟩
      · have hwa : workL true a a = a := by
          unfold workL
          have : isIntegerKind a = false := by cases a <;> first | (cases hfa; done) | rfl
          rw [this]
          rfl
        have e := hsu rfl
        unfold operand castElem at e
        rw [hwa, if_pos rfl] at e
        rw [e] at hu
        cases hu
        rfl
      · obtain ⟨l, g, hr, -⟩ := int_kind h1
        obtain ⟨n, rfl, -⟩ := ofType_int h1 hx hr
        cases hu
        have hne : a ≠ .f64 := by rintro rfl; cases h1
        have hw64 : workL true a b = .f64 := by
          unfold workL
          rw [h1, h2]
          rfl
        unfold operand at hru
        rw [castElem_real ha (by rw [hw64]; exact hne), hw64] at hru
        have hru : some (Flt.num ((intToF64 n : Int) : ℚ)) = some (.num 0) := hru
        injection hru with hru
        injection hru with hru
        rw [(intToF64_zero_iff n).1 (by exact_mod_cast hru)]
        simp
    · rintro rfl
      exact hround0 u' hiu
  have hun : u' = .nan ↔ u = .nan := by
    constructor
    · rintro rfl
      cases u <;> first | rfl | exact hiu.elim | (cases hiu; done)
    · rintro rfl
      exact hiu.symm
  have kern : ∀ P Lo Hi, ∃ w, floatKernel P Lo Hi neg .div u' (.num 0) = w ∧ (w = .nan ↔ u' = .nan ∨ u' = .num 0) ∧ (w ≠ .nan → w.Infinite) := by
    intro P Lo Hi
    refine ⟨_, rfl, ?_⟩
    cases u' with
    | nan => exact ⟨⟨fun _ => Or.inl rfl, fun _ => rfl⟩, fun h => absurd rfl h⟩
    | num q =>
      by_cases hq : q = 0
      · subst hq
        exact ⟨⟨fun _ => Or.inr rfl, fun _ => rfl⟩, fun h => absurd rfl h⟩
      · have e : floatKernel P Lo Hi neg .div (.num q) (.num 0) = if decide (q < 0) = neg then .posInf else .negInf := by
          show (if (0 : ℚ) = 0 then (if q = 0 then .nan else if decide (q < 0) = neg then .posInf else .negInf) else roundBin P Lo Hi (q / 0)) = _
          rw [if_pos rfl, if_neg hq]
        rw [e]
        constructor
        · constructor
          · intro h
            split at h <;> cases h
          · rintro (h | h)
            · cases h
            · cases h; exact absurd rfl hq
        · intro _
          split
          · exact Or.inl rfl
          · exact Or.inr rfl
    | posInf =>
      have e : floatKernel P Lo Hi neg .div .posInf (.num 0) = if (0 : ℚ) < 0 ∨ ((0 : ℚ) = 0 ∧ neg = true) then .negInf else .posInf := rfl
      rw [e]
      constructor
      · constructor
        · intro h
          split at h <;> cases h
        · rintro (h | h) <;> cases h
      · intro _
        split
        · exact Or.inr rfl
        · exact Or.inl rfl
    | negInf =>
      have e : floatKernel P Lo Hi neg .div .negInf (.num 0) = if (0 : ℚ) < 0 ∨ ((0 : ℚ) = 0 ∧ neg = true) then .posInf else .negInf := rfl
      rw [e]
      constructor
      · constructor
        · intro h
          split at h <;> cases h
        · rintro (h | h) <;> cases h
      · intro _
        split
        · exact Or.inl rfl
        · exact Or.inr rfl
  have fin : ∀ w : Flt ℚ, (w = .nan ↔ u' = .nan ∨ u' = .num 0) → (w = .nan ↔ u = .nan ∨ u = .num 0) := by
    intro w h
    rw [h, hun, huz]
  have eOp : elemOp out pw neg .div a b x y = .ok (.flt (fltElem pw neg .div (workL true a b) u' (.num 0))) := by
    show arithElem _ pw neg .div (workL true a b) (workL true b a) (operand true a b x) (operand true b a y) = _
    unfold arithElem
    rw [if_pos hw, hsu hw, hsv hw.symm, hv0]
    rfl
  rcases isFloat_cases hf with h | h | h
  · obtain ⟨w, k1, k2, k3⟩ := kern 24 (-149) 104
    refine ⟨u, w, hu, ?_, fin w k2, k3⟩
    rw [eOp, h]
    show Outcome.ok (Elem.flt (toFormat 11 (-24) 5 (floatKernel 24 (-149) 104 neg .div u' (.num 0)))) = _
    rw [k1]
    cases w with
    | num q => exact absurd (k3 (fun hc => nomatch hc)) (by rintro (h | h) <;> cases h)
    | _ => rfl
  · obtain ⟨w, k1, k2, k3⟩ := kern 24 (-149) 104
    refine ⟨u, w, hu, ?_, fin w k2, k3⟩
    rw [eOp, h, ← k1]
    rfl
  · obtain ⟨w, k1, k2, k3⟩ := kern 53 (-1074) 971
    refine ⟨u, w, hu, ?_, fin w k2, k3⟩
    rw [eOp, h, ← k1]
    rfl

/-- C96 (partial): dividing by zero gives NaN for zero and NaN, an infinity for everything else, if both operands have the same float
dtype or both are integers.  Missing: two different dtypes of which one is a float, where the code stores NaN. -/
theorem C96_div_zero_partial (out : Bool) (pw : Powf) (neg : Bool) {a b : DType} (ha : a.Real) (hb : b.Real)
    (hab : (a = b ∧ DType.isFloat a = true) ∨ (isIntegerKind a = true ∧ isIntegerKind b = true)) {h g : Held Elem} (hw : h.view.WF)
    (gw : g.view.WF) (ht : Typed a h) (gt : Typed b g) {s : List Nat} (ho : IsBroadcast h.view.shape g.view.shape s) :
    ∃ r q, arith out pw neg .div a b h g = .ok (r, q) ∧ q.shape = s ∧ ∀ i, InShape s i →
      ((g.nd.broadcast s).get i).number = some (0, 0) → ∃ u w, ((h.nd.broadcast s).get i).parts = some (u, .num 0) ∧ q.at? i = some (.flt w) ∧
        (w = .nan ↔ u = .nan ∨ u = .num 0) ∧ (w ≠ .nan → w.Infinite) := by
  obtain ⟨b1, b2⟩ := broadcastsTo_of ho
  have hfl : DType.isFloat (resultOf .div a b) = true := by
    rcases hab with ⟨rfl, h⟩ | ⟨h1, h2⟩
    · cases a <;> first | (cases h; done) | rfl
    · unfold resultOf workL
      simp only [decide_true, h1, h2, and_self, if_true]
      rfl
  obtain ⟨p, lo, hi, hfm⟩ : ∃ p lo hi, (resultOf .div a b).format = some (p, lo, hi) := by
    rcases isFloat_cases hfl with h | h | h <;> rw [h] <;> exact ⟨_, _, _, rfl⟩
  obtain ⟨q, h1, h2, -, h4⟩ := arith_ok out pw neg .div ha hb hw gw ho (fun i hi => by
    obtain ⟨_, _, _, _, w, _, _, _, _, h, _⟩ := elemOp_float out pw neg (op := .div) (by simp) ha hb hfl hfm (typed_broadcast ht b1 hi)
      (typed_broadcast gt b2 hi)
    exact ⟨_, h⟩)
  refine ⟨_, q, h1, h2, fun i hi hz => ?_⟩
  obtain ⟨u, w, c1, c2, c3, c4⟩ := div_zero_elem out pw neg ha hb hab (typed_broadcast ht b1 hi) (typed_broadcast gt b2 hi) hz
  obtain ⟨e, e7, e8⟩ := h4 i hi
  rw [c2] at e7
  cases e7
  exact ⟨u, w, c1, e8, c3, c4⟩

example : arith false noPow false .div .i8 .u16 (stored .i8 [2] [.int (-3), .int 0]) (stored .u16 [1] [.int 0]) =
      .ok (.f64, ⟨[2], [.flt .negInf, .flt .nan]⟩) ∧
    arith false noPow false .div .f16 .f16 (stored .f16 [1] [.flt (.num 1)]) (stored .f16 [1] [.flt (.num 0)]) =
      .ok (.f16, ⟨[1], [.flt .posInf]⟩) := ⟨by decide +kernel, by decide +kernel⟩

/-! ### Python numbers -/

/-- The number as a float, whole numbers of moderate size only. -/
def _root_.Spec.PyScalar.Value : PyScalar → Flt ℚ → Prop
  | .int n, x => n.natAbs ≤ 2 ^ 53 ∧ x = .num (n : ℚ)
  | .float x, y => y = x ∧ IsFlt 53 (-1074) 971 x
  | .complex _ _, _ => False

theorem pyF64_value {s : PyScalar} {x : Flt ℚ} (h : Spec.PyScalar.Value s x) : pyF64 s = some x := by
  cases s with
  | int n =>
    obtain ⟨h1, rfl⟩ := h
    unfold pyF64
    dsimp only
    rw [roundBin_exact (isFloat_small h1)]
  | float y => obtain ⟨rfl, _⟩ := h; rfl
  | complex _ _ => exact h.elim

theorem itemsize_real {d : DType} (hd : d.Real) : 0 < DType.itemsize d := by
  cases d <;> first | exact hd.elim | decide

theorem isBroadcast_one' {s : List Nat} (hs : s ≠ []) : IsBroadcast [1] s s := by
  have h := isBroadcast_one hs
  refine ⟨by have := h.1; rw [Nat.max_comm]; exact this, fun k hk => ?_⟩
  rcases h.2 k hk with ⟨a, b⟩ | ⟨a, b⟩ | ⟨a, b⟩
  · exact Or.inl ⟨a.symm, by rw [b, a]⟩
  · exact Or.inr (Or.inr ⟨a, b⟩)
  · exact Or.inr (Or.inl ⟨a, b⟩)

theorem fullOne_get {d : DType} (hd : d.Real) (x : Flt ℚ) {s : List Nat} (hs : s ≠ []) :
    (fullOne d x).view.WF ∧ (fullOne d x).view.shape = [1] ∧ (∀ i, InShape s i → ((fullOne d x).nd.broadcast s).get i = writeF64 d x) := by
  have hx := (oneOf_is (writeF64 d x)).denote (itemsize_real hd) (zeroElem d)
  refine ⟨held_of_wf _ _ _, rfl, fun i hi => ?_⟩
  rw [bcast_one_get (a := (fullOne d x).nd) rfl hs hi]
  exact hx.2 [0] ⟨Nat.one_pos, trivial⟩

/-- The array made of a number: its only element can be stored. -/
theorem fullOne_typed {d : DType} (hd : d.Real) {x : Flt ℚ} (hx : IsFlt 53 (-1074) 971 x) : Typed d (fullOne d x) := by
  intro i hi
  have hx1 := (oneOf_is (writeF64 d x)).denote (itemsize_real hd) (zeroElem d)
  have e : (fullOne d x).nd.get i = writeF64 d x := hx1.2 i hi
  rw [e]
  exact (writeF64_converts (real_numeric hd) (x := .flt x) (u := x) rfl hx (fun _ _ _ h => nomatch h)).typed

theorem exists_broadcast_one (s : List Nat) : ∃ t, IsBroadcast s [1] t ∧ (∃ t', IsBroadcast [1] s t') := by
  by_cases hs : s = []
  · subst hs
    refine ⟨[1], ⟨rfl, ?_⟩, [1], ⟨rfl, ?_⟩⟩
    · intro k hk
      exact Or.inr (Or.inl ⟨rfl, rfl⟩)
    · intro k hk
      exact Or.inr (Or.inr ⟨rfl, rfl⟩)
  · exact ⟨s, isBroadcast_one hs, s, isBroadcast_one' hs⟩

theorem scalarOp_eq (pw : Powf) (neg : Bool) (op : ArithOp) {d : DType} (hd : d.Real) {h : Held Elem} (hw : h.view.WF) {s : PyScalar} {x : Flt ℚ}
    (hs : pyF64 s = some x) : scalarOp pw neg op d h s = arith false pw neg op d d h (fullOne d x) := by
  unfold scalarOp
  rw [hs]
  dsimp only
  have he : arith false pw neg op d d h (fullOne d x) ≠ .error := by
    rw [Ne, C96_error_iff false pw neg op hd hd hw (show (fullOne d x).view.WF from held_of_wf _ _ _), not_not]
    obtain ⟨t, ht, -⟩ := exists_broadcast_one h.view.shape
    exact ⟨t, ht⟩
  split
  · rename_i h; exact absurd h he
  · rfl

theorem rscalarOp_eq (pw : Powf) (neg : Bool) {op : ArithOp} (hop : op ≠ .add ∧ op ≠ .mul) {d : DType} (hd : d.Real) {h : Held Elem}
    (hw : h.view.WF) {s : PyScalar} {x : Flt ℚ} (hs : pyF64 s = some x) :
    rscalarOp pw neg op d h s = arith false pw neg op d d (fullOne d x) h := by
  unfold rscalarOp
  rw [if_neg (by rintro (h | h); exact hop.1 h; exact hop.2 h), hs]
  dsimp only
  have he : arith false pw neg op d d (fullOne d x) h ≠ .error := by
    rw [Ne, C96_error_iff false pw neg op hd hd (show (fullOne d x).view.WF from held_of_wf _ _ _) hw, not_not]
    obtain ⟨-, -, t, ht⟩ := exists_broadcast_one h.view.shape
    exact ⟨t, ht⟩
  split
  · rename_i h; exact absurd h he
  · rfl

/-- C96 (partial): `array op n` and `n op array` for integers: exact modulo the number of values of the dtype.  Missing: numbers that the
dtype of the array cannot store or that are larger than `2 ^ 53`, and arrays of rank 0. -/
theorem C96_scalar_integers_partial (pw : Powf) (neg : Bool) {op : ArithOp} {f : Int → Int → Int} (hf : op.whole = some f) {d : DType}
    (hd : isIntegerKind d = true) {lo hi : Int} (hr : d.intRange = some (lo, hi)) {h : Held Elem} (hw : h.view.WF) (ht : Typed d h)
    (hs : h.view.shape ≠ []) {n : Int} (h1 : lo ≤ n) (h2 : n ≤ hi) (hn : n.natAbs ≤ 2 ^ 53) :
    ∃ q q', scalarOp pw neg op d h (.int n) = .ok (d, q) ∧ rscalarOp pw neg op d h (.int n) = .ok (d, q') ∧
      q.shape = h.view.shape ∧ q'.shape = h.view.shape ∧ ∀ i, InShape h.view.shape i → ∃ m k k', h.nd.get i = .int m ∧
        q.at? i = some (.int k) ∧ lo ≤ k ∧ k ≤ hi ∧ (hi - lo + 1) ∣ k - f m n ∧ (lo ≤ f m n → f m n ≤ hi → k = f m n) ∧
        q'.at? i = some (.int k') ∧ lo ≤ k' ∧ k' ≤ hi ∧ (hi - lo + 1) ∣ k' - f n m ∧ (lo ≤ f n m → f n m ≤ hi → k' = f n m) := by
  have hdr : d.Real := by cases d <;> first | (cases hd; done) | trivial
  have hval : Spec.PyScalar.Value (.int n) (.num (n : ℚ)) := ⟨hn, rfl⟩
  have hflt : IsFlt 53 (-1074) 971 (.num (n : ℚ)) := isFloat_small hn
  obtain ⟨w1, s1, g1⟩ := fullOne_get hdr (.num (n : ℚ)) hs
  rw [writeF64_whole hd hr h1 h2] at g1
  have self : ∀ i, InShape h.view.shape i → (h.nd.broadcast h.view.shape).get i = h.nd.get i := fun i hi => bcast_self rfl hi
  obtain ⟨q, a1, a2, a3⟩ := C96_integers false pw neg hf hd hr hw w1 ht (fullOne_typed hdr hflt) (s := h.view.shape)
    (by rw [s1]; exact isBroadcast_one hs)
  obtain ⟨q', b1, b2, b3⟩ := C96_integers false pw neg hf hd hr w1 hw (fullOne_typed hdr hflt) ht (s := h.view.shape)
    (by rw [s1]; exact isBroadcast_one' hs)
  have e1 := scalarOp_eq pw neg op hdr hw (pyF64_value hval)
  rw [a1] at e1
  by_cases hop : op = .add ∨ op = .mul
  · have hcomm : ∀ m n, f m n = f n m := by
      intro m n
      rcases hop with rfl | rfl <;> cases hf
      · exact Int.add_comm _ _
      · exact Int.mul_comm _ _
    have e2 : rscalarOp pw neg op d h (.int n) = .ok (d, q) := by
      unfold rscalarOp
      rw [if_pos hop]
      exact e1
    refine ⟨q, q, e1, e2, a2, a2, fun i hi => ?_⟩
    obtain ⟨m, n', k, c1, c2, c3, c4, c5, c6, c7⟩ := a3 i hi
    rw [self i hi] at c1
    rw [g1 i hi] at c2
    cases c2
    exact ⟨m, k, k, c1, c3, c4, c5, c6, c7, c3, c4, c5, by rw [hcomm]; exact c6, by rw [hcomm]; exact c7⟩
  · push Not at hop
    have e2 := rscalarOp_eq pw neg hop hdr hw (pyF64_value hval)
    rw [b1] at e2
    refine ⟨q, q', e1, e2, a2, b2, fun i hi => ?_⟩
    obtain ⟨m, n', k, c1, c2, c3, c4, c5, c6, c7⟩ := a3 i hi
    obtain ⟨n'', m', k', d1, d2, d3, d4, d5, d6, d7⟩ := b3 i hi
    rw [self i hi] at c1 d2
    rw [g1 i hi] at c2 d1
    cases c2
    cases d1
    rw [c1] at d2
    cases d2
    exact ⟨m, k, k', c1, c3, c4, c5, c6, c7, d3, d4, d5, d6, d7⟩

example : scalarOp noPow false .sub .u8 (stored .u8 [2] [.int 200, .int 3]) (.int 100) = .ok (.u8, ⟨[2], [.int 100, .int 159]⟩) ∧
    rscalarOp noPow false .sub .u8 (stored .u8 [2] [.int 200, .int 3]) (.int 100) = .ok (.u8, ⟨[2], [.int 156, .int 97]⟩) :=
  ⟨by decide +kernel, by decide +kernel⟩

theorem isArithType_self {op : ArithOp} {d : DType} (hd : d.Real) : IsArithType op d d (if op = .div ∧ d.format = none then .f64 else d) := by
  refine ⟨d, ?_, rfl⟩
  have := C28_promote (real_numeric hd) (real_numeric hd)
  rw [C28_idem] at this
  exact this

theorem rounding_unique {p : Nat} {lo hi : Int} {u v : Flt ℚ} (hu : IsFlt p lo hi u) (h : IsRounding p lo hi u v) : v = u := by
  cases u with
  | num q =>
    cases v with
    | num r =>
      have := h.2 q hu
      rw [sub_self, abs_zero] at this
      rw [sub_eq_zero.1 (abs_eq_zero.1 (le_antisymm this (abs_nonneg _)))]
    | nan => exact h.elim
    | posInf => exact absurd (h q hu) (lt_irrefl _)
    | negInf => exact absurd (h q hu) (lt_irrefl _)
  | nan => exact h.symm
  | posInf => exact h.symm
  | negInf => exact h.symm

/-- C96 (partial): `array op x` and `x op array` for float arrays: the number is rounded to the dtype, the result is the exact result
rounded.  Missing: whole numbers above `2 ^ 53`, arrays of rank 0 and of other dtypes. -/
theorem C96_scalar_floats_partial (pw : Powf) (neg : Bool) {op : ArithOp} (hop : op ∈ [ArithOp.add, .sub, .mul, .div]) {d : DType}
    (hd : DType.isFloat d = true) {p : Nat} {lo hi : Int} (hfm : d.format = some (p, lo, hi)) {h : Held Elem} (hw : h.view.WF) (ht : Typed d h)
    (hs : h.view.shape ≠ []) {s : PyScalar} {x : Flt ℚ} (hx : Spec.PyScalar.Value s x) :
    ∃ q q' x', IsRounding p lo hi x x' ∧ scalarOp pw neg op d h s = .ok (d, q) ∧ rscalarOp pw neg op d h s = .ok (d, q') ∧
      q.shape = h.view.shape ∧ q'.shape = h.view.shape ∧ ∀ i, InShape h.view.shape i → ∃ u w w', h.nd.get i = .flt u ∧
        q.at? i = some (.flt w) ∧ IsArith p lo hi op u x' w ∧
        q'.at? i = some (.flt w') ∧ (IsArith p lo hi op x' u w' ∨ ((op = .add ∨ op = .mul) ∧ w' = w)) := by
  have hdr : d.Real := by cases d <;> first | (cases hd; done) | trivial
  have hflt : IsFlt 53 (-1074) 971 x := by
    cases s with
    | int n => obtain ⟨h1, rfl⟩ := hx; exact isFloat_small h1
    | float y => obtain ⟨rfl, h2⟩ := hx; exact h2
    | complex _ _ => exact hx.elim
  have hne : ¬ (op = .div ∧ d.format = none) := by rw [hfm]; rintro ⟨_, h⟩; cases h
  have hty := isArithType_self (op := op) hdr
  rw [if_neg hne] at hty
  have hl : ¬ LacksArith op d d := by
    unfold LacksArith
    rintro (⟨rfl, _⟩ | ⟨_, ⟨rfl, _⟩ | ⟨rfl, _⟩⟩) <;> cases hd
  obtain ⟨w1, s1, g1⟩ := fullOne_get hdr x hs
  have hp : 0 < p ∧ lo ≤ hi := by
    rcases isFloat_cases hd with rfl | rfl | rfl <;> cases hfm <;> norm_num
  have hwr : writeF64 d x = .flt (toFormat p lo hi x) := by
    rcases isFloat_cases hd with rfl | rfl | rfl <;> cases hfm
    · rfl
    · rfl
    · show Elem.flt x = _
      cases x <;> first | rfl | (show _ = Elem.flt (roundBin _ _ _ _); rw [roundBin_exact hflt])
  rw [hwr] at g1
  have self : ∀ i, InShape h.view.shape i → (h.nd.broadcast h.view.shape).get i = h.nd.get i := fun i hi => bcast_self rfl hi
  obtain ⟨q, a1, a2, a3⟩ := C96_floats false pw neg hop hdr hdr hl hty hfm hw w1 ht (fullOne_typed hdr hflt) (s := h.view.shape)
    (by rw [s1]; exact isBroadcast_one hs)
  obtain ⟨q', b1, b2, b3⟩ := C96_floats false pw neg hop hdr hdr hl hty hfm w1 hw (fullOne_typed hdr hflt) ht (s := h.view.shape)
    (by rw [s1]; exact isBroadcast_one' hs)
  have e1 := scalarOp_eq pw neg op hdr hw (pyF64_value hx)
  rw [a1] at e1
  have hel : ∀ i, InShape h.view.shape i → ∃ u, h.nd.get i = .flt u ∧ IsFlt p lo hi u := by
    intro i hi
    have := ht i hi
    revert this
    generalize h.nd.get i = z
    intro hz
    cases z <;> rcases isFloat_cases hd with rfl | rfl | rfl <;> first | exact hz.elim | (obtain ⟨_, _, hc, _⟩ := hz; cases hc; done) | skip
    all_goals
      cases hfm
      exact ⟨_, rfl, hz⟩
  have left : ∀ i, InShape h.view.shape i → ∃ u w, h.nd.get i = .flt u ∧ q.at? i = some (.flt w) ∧ IsArith p lo hi op u (toFormat p lo hi x) w := by
    intro i hi
    obtain ⟨u, v, u', v', w, c1, c2, c3, c4, c5, c6⟩ := a3 i hi
    obtain ⟨u0, hu0, hf0⟩ := hel i hi
    rw [self i hi, hu0] at c1
    rw [g1 i hi] at c2
    cases c1
    cases c2
    rw [rounding_unique hf0 c3, rounding_unique (toFormat_isFlt hp.1 hp.2 x) c4] at c6
    exact ⟨u, w, hu0, c5, c6⟩
  refine ⟨q, ?_⟩
  by_cases hop2 : op = .add ∨ op = .mul
  · refine ⟨q, toFormat p lo hi x, toFormat_rounding hp.1 hp.2 x, e1, ?_, a2, a2, fun i hi => ?_⟩
    · unfold rscalarOp
      rw [if_pos hop2]
      exact e1
    · obtain ⟨u, w, c1, c2, c3⟩ := left i hi
      exact ⟨u, w, w, c1, c2, c3, c2, Or.inr ⟨hop2, rfl⟩⟩
  · push Not at hop2
    have e2 := rscalarOp_eq pw neg hop2 hdr hw (pyF64_value hx)
    rw [b1] at e2
    refine ⟨q', toFormat p lo hi x, toFormat_rounding hp.1 hp.2 x, e1, e2, a2, b2, fun i hi => ?_⟩
    obtain ⟨u, w, k1, k2, k3⟩ := left i hi
    obtain ⟨v, u1, v', u', w', c1, c2, c3, c4, c5, c6⟩ := b3 i hi
    obtain ⟨u0, hu0, hf0⟩ := hel i hi
    rw [self i hi, hu0] at c2
    rw [g1 i hi] at c1
    rw [hu0] at k1
    cases c1
    cases c2
    cases k1
    rw [rounding_unique hf0 c4, rounding_unique (toFormat_isFlt hp.1 hp.2 x) c3] at c6
    exact ⟨u, w, w', hu0, k2, k3, c5, Or.inl c6⟩

example : scalarOp noPow false .div .f16 (stored .f16 [2] [.flt (.num 1), .flt .posInf]) (.int 3) =
      .ok (.f16, ⟨[2], [.flt (.num (1365 / 4096)), .flt .posInf]⟩) ∧
    rscalarOp noPow false .sub .f32 (stored .f32 [1] [.flt (.num 1)]) (.float (.num (1 / 2))) = .ok (.f32, ⟨[1], [.flt (.num (-1 / 2))]⟩) ∧
    Spec.PyScalar.Value (.int 3) (.num 3) := ⟨by decide +kernel, by decide +kernel, by norm_num, by norm_num⟩

/-- C96 (partial): dividing an integer array by a whole number gives float64 quotients of the rounded elements. -/
theorem C96_scalar_division_partial (pw : Powf) (neg : Bool) {d : DType} (hd : isIntegerKind d = true) {lo hi : Int}
    (hr : d.intRange = some (lo, hi)) {h : Held Elem} (hw : h.view.WF) (ht : Typed d h) (hs : h.view.shape ≠ []) {n : Int} (h1 : lo ≤ n)
    (h2 : n ≤ hi) (hn : n.natAbs ≤ 2 ^ 53) (h0 : n ≠ 0) :
    ∃ q, scalarOp pw neg .div d h (.int n) = .ok (.f64, q) ∧ q.shape = h.view.shape ∧ ∀ i, InShape h.view.shape i → ∃ m u w,
      h.nd.get i = .int m ∧ IsRounding 53 (-1074) 971 (.num (m : ℚ)) (.num u) ∧ q.at? i = some (.flt w) ∧
      IsRounding 53 (-1074) 971 (.num (u / n)) w := by
  have hdr : d.Real := by cases d <;> first | (cases hd; done) | trivial
  have hval : Spec.PyScalar.Value (.int n) (.num (n : ℚ)) := ⟨hn, rfl⟩
  have hflt : IsFlt 53 (-1074) 971 (.num (n : ℚ)) := isFloat_small hn
  have hty := isArithType_self (op := .div) hdr
  rw [if_pos ⟨rfl, by cases d <;> first | (cases hd; done) | rfl⟩] at hty
  have hl : ¬ LacksArith .div d d := by
    unfold LacksArith
    rintro (⟨rfl, _⟩ | ⟨_, ⟨rfl, _⟩ | ⟨rfl, _⟩⟩) <;> cases hd
  obtain ⟨w1, s1, g1⟩ := fullOne_get hdr (.num (n : ℚ)) hs
  rw [writeF64_whole hd hr h1 h2] at g1
  obtain ⟨q, a1, a2, a3⟩ := C96_floats false pw neg (op := .div) (by simp) hdr hdr hl hty rfl hw w1 ht (fullOne_typed hdr hflt) (s := h.view.shape)
    (by rw [s1]; exact isBroadcast_one hs)
  have e1 := scalarOp_eq pw neg .div hdr hw (pyF64_value hval)
  rw [a1] at e1
  refine ⟨q, e1, a2, fun i hi => ?_⟩
  obtain ⟨u, v, u', v', w, c1, c2, c3, c4, c5, c6⟩ := a3 i hi
  have self : (h.nd.broadcast h.view.shape).get i = h.nd.get i := bcast_self rfl hi
  obtain ⟨m, em, m1, m2⟩ := ofType_int hd (ht i hi) hr
  rw [self, em] at c1
  rw [g1 i hi] at c2
  cases c1
  cases c2
  rw [rounding_unique hflt c4] at c6
  have hfin : ∃ t, u' = .num t := by
    have hb : m.natAbs < 2 ^ 65 := by
      cases d <;> first | (cases hd; done) | (cases hr; omega)
    have hin : IsFloat 53 (-1074) 971 ((2 : ℚ) ^ 65) := ⟨1, 65, by norm_num, by norm_num, by norm_num, by norm_num⟩
    cases u' with
    | num t => exact ⟨t, rfl⟩
    | nan => exact c3.elim
    | posInf =>
      have := c3 _ hin
      exfalso
      have hm : (m : ℚ) < 2 ^ 65 := by
        have : m < 2 ^ 65 := by omega
        exact_mod_cast this
      linarith
    | negInf =>
      have := c3 _ (isFloat_neg hin)
      exfalso
      have hm : -(2 ^ 65 : ℚ) < m := by
        have : -(2 ^ 65) < m := by omega
        exact_mod_cast this
      linarith
  obtain ⟨t, rfl⟩ := hfin
  refine ⟨m, t, w, em, c3, c5, ?_⟩
  have hn0 : (n : ℚ) ≠ 0 := by exact_mod_cast h0
  exact c6.2.1 t n _ rfl rfl (if_neg hn0)

example : scalarOp noPow false .div .u8 (stored .u8 [2] [.int 200, .int 3]) (.int 16) =
    .ok (.f64, ⟨[2], [.flt (.num (25 / 2)), .flt (.num (3 / 16))]⟩) := by decide +kernel

/-- C96 (partial): for float64 arrays the function `add(array, x)` and the operator `array + x` agree (and likewise for every operation). -/
theorem C96_function_partial (pw : Powf) (neg : Bool) (op : ArithOp) {h : Held Elem} (hw : h.view.WF) {s : PyScalar} :
    ufuncScalar pw neg op .f64 h s = scalarOp pw neg op .f64 h s := by
  cases hs : pyF64 s with
  | none => unfold ufuncScalar scalarOp; rw [hs]
  | some x =>
    rw [scalarOp_eq pw neg op (d := .f64) (by trivial) hw hs]
    unfold ufuncScalar
    rw [hs]

example : ufuncScalar noPow false .add .f64 (stored .f64 [1] [.flt (.num 1)]) (.float (.num (1 / 2))) = .ok (.f64, ⟨[1], [.flt (.num (3 / 2))]⟩) := by
  decide +kernel

/-! ### Counterexamples -/

/-- C96 fails for a number that is not of the array's dtype: `[1, 2] + 1.5` is `[2, 3]`, `[5] / 2.5` is `2.5`, `uint8 [1] + 300` is 0
(300 becomes 255; NumPy refuses it), `int64 [0] + (2^53 + 1)` is `2^53`, `[True] + 2` is `True`. -/
theorem C96_scalar_counterexample :
    scalarOp noPow false .add .i64 (stored .i64 [2] [.int 1, .int 2]) (.float (.num (3 / 2))) = .ok (.i64, ⟨[2], [.int 2, .int 3]⟩) ∧
    scalarOp noPow false .div .i64 (stored .i64 [1] [.int 5]) (.float (.num (5 / 2))) = .ok (.f64, ⟨[1], [.flt (.num (5 / 2))]⟩) ∧
    scalarOp noPow false .add .u8 (stored .u8 [1] [.int 1]) (.int 300) = .ok (.u8, ⟨[1], [.int 0]⟩) ∧
    scalarOp noPow false .add .i64 (stored .i64 [1] [.int 0]) (.int (2 ^ 53 + 1)) = .ok (.i64, ⟨[1], [.int (2 ^ 53)]⟩) ∧
    scalarOp noPow false .add .bool (stored .bool [1] [.bool true]) (.int 2) = .ok (.bool, ⟨[1], [.bool true]⟩) := by
  refine ⟨?_, ?_, ?_, ?_, ?_⟩ <;> decide +kernel

/-- C96 fails for arrays of rank 0, which become arrays of shape `[1]`, and for complex numbers, which are refused. -/
theorem C96_scalar_shape_counterexample :
    scalarOp noPow false .add .f64 (stored .f64 [] [.flt (.num 1)]) (.int 1) = .ok (.f64, ⟨[1], [.flt (.num 2)]⟩) ∧
    scalarOp noPow false .add .f64 (stored .f64 [1] [.flt (.num 1)]) (.complex (.num 0) (.num 1)) = .error := by
  refine ⟨?_, ?_⟩ <;> decide +kernel

/-- C96 fails for the functions: `add` of a float32 or integer array and 1 is a float64 array, unlike the operator. -/
theorem C96_function_counterexample :
    ufuncScalar noPow false .add .f32 (stored .f32 [1] [.flt (.num 1)]) (.int 1) = .ok (.f64, ⟨[1], [.flt (.num 2)]⟩) ∧
    ufuncScalar noPow false .add .i64 (stored .i64 [1] [.int 1]) (.int 1) = .ok (.f64, ⟨[1], [.flt (.num 2)]⟩) ∧
    scalarOp noPow false .add .f32 (stored .f32 [1] [.flt (.num 1)]) (.int 1) = .ok (.f32, ⟨[1], [.flt (.num 2)]⟩) := by
  refine ⟨?_, ?_, ?_⟩ <;> decide +kernel

/-- C96 fails for bools: `[True] / [True]` is a bool, `[True] - [True]` is accepted, and a bool divided by an int8 is a float16. -/
theorem C96_type_counterexample :
    arith false noPow false .div .bool .bool (stored .bool [1] [.bool true]) (stored .bool [1] [.bool true]) = .ok (.bool, ⟨[1], [.bool true]⟩) ∧
    arith false noPow false .sub .bool .bool (stored .bool [1] [.bool true]) (stored .bool [1] [.bool true]) = .ok (.bool, ⟨[1], [.bool false]⟩) ∧
    arith false noPow false .div .bool .i8 (stored .bool [1] [.bool true]) (stored .i8 [1] [.int 3]) =
      .ok (.f16, ⟨[1], [.flt (.num (1365 / 4096))]⟩) := by
  refine ⟨?_, ?_, ?_⟩ <;> decide +kernel

/-- C96 fails for a division by zero of two float dtypes: NaN instead of infinity; and for integers of two dtypes: a sum that does
not fit saturates instead of wrapping. -/
theorem C96_mixed_counterexample :
    arith false noPow false .div .f64 .i64 (stored .f64 [1] [.flt (.num 1)]) (stored .i64 [1] [.int 0]) = .ok (.f64, ⟨[1], [.flt .posInf]⟩) ∧
    arith false noPow false .div .f64 .f32 (stored .f64 [1] [.flt (.num 1)]) (stored .f32 [1] [.flt (.num 0)]) = .ok (.f64, ⟨[1], [.flt .nan]⟩) ∧
    arith false noPow false .add .i32 .i8 (stored .i32 [1] [.int (2 ^ 31 - 1)]) (stored .i8 [1] [.int 1]) =
      .ok (.i32, ⟨[1], [.int (2 ^ 31 - 1)]⟩) := by
  refine ⟨?_, ?_, ?_⟩ <;> decide +kernel

end Props
