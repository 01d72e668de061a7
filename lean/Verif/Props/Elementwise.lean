import Verif.Lemmas.Elementwise
import Verif.Props.Broadcast
import Mathlib.Order.Lattice
import Mathlib.Order.MinMax
/-!
# C15, C52: element-wise operations, clip and where
-/

namespace Props
open Spec Rumpy

/-- The three operands of `where` can all be broadcast to the common shape. -/
theorem where_views {c x y : View} (hc : c.WF) (hx : x.WF) (hy : y.WF) {cx out : List Nat}
    (h1 : broadcastShapes c.shape x.shape = some cx) (h2 : broadcastShapes cx y.shape = some out) :
    ∃ c' x' y', c.broadcastTo out = some c' ∧ x.broadcastTo out = some x' ∧ y.broadcastTo out = some y' := by
  obtain ⟨b1, b2, -⟩ := C09_broadcast_least _ _ _ h1
  obtain ⟨b3, b4, -⟩ := C09_broadcast_least _ _ _ h2
  have tr : ∀ {s : List Nat}, BroadcastsTo s cx → BroadcastsTo s out := fun {s} h => by
    refine ⟨by have := h.1; have := b3.1; omega, fun k hk => ?_⟩
    have := h.1
    rcases h.2 k hk with h' | h'
    · exact Or.inl h'
    · rcases b3.2 k (by omega) with h'' | h''
      · exact Or.inl (by omega)
      · exact Or.inr (by omega)
  obtain ⟨c', ec⟩ := Option.isSome_iff_exists.1 ((C09_broadcast_to_succeeds_iff c hc out).2 (tr b1))
  obtain ⟨x', ex⟩ := Option.isSome_iff_exists.1 ((C09_broadcast_to_succeeds_iff x hx out).2 (tr b2))
  obtain ⟨y', ey⟩ := Option.isSome_iff_exists.1 ((C09_broadcast_to_succeeds_iff y hy out).2 b4)
  exact ⟨c', x', y', ec, ex, ey⟩

theorem denote_broadcast (mem : Int → α) {v v' : View} (hv : v.WF) {out i : List Nat}
    (e : v.broadcastTo out = some v') (hi : InShape out i) :
    mem (v'.addr i) = ((v.denote mem).broadcast out).get i := by
  obtain ⟨_, h2, h3, _⟩ := broadcastTo_addr hv e
  exact congrArg mem (h3 i hi)

/-! ### C15 layout independence -/

/-- C15: a unary element-wise operation applies the function at every index, whatever the layout
and whichever loop is chosen. -/
theorem C15_unary (f : α → γ) (mem : Int → α) (v : View) (hw : v.WF) (zero : γ) :
    (mapUnary f mem v zero).Is ⟨v.shape, fun i => f ((v.denote mem).get i)⟩ ∧
    (mapUnaryFallback f mem v zero).Is ⟨v.shape, fun i => f ((v.denote mem).get i)⟩ := by
  rw [mapUnary_eq f mem hw, mapUnaryFallback_eq f mem hw]
  exact ⟨⟨rfl, rfl⟩, rfl, rfl⟩

/-- C15: a binary operation succeeds exactly when the shapes have a NumPy broadcast shape. -/
theorem C15_binary_succeeds_iff (typed : Bool) (f : α → β → γ) (memA : Int → α) (memB : Int → β) (a b : View)
    (ha : a.WF) (hb : b.WF) (zero : γ) :
    (binaryOp typed f memA memB a b zero).isSome ↔ ∃ out, IsBroadcast a.shape b.shape out := by
  unfold binaryOp
  constructor
  · intro h
    cases hs : broadcastShapes a.shape b.shape with
    | none => simp [hs] at h
    | some out => exact ⟨out, broadcastShapes_iff.1 hs⟩
  · rintro ⟨out, h⟩
    have hs := broadcastShapes_iff.2 h
    obtain ⟨h1, h2, -⟩ := C09_broadcast_least _ _ _ hs
    obtain ⟨a', ea⟩ := Option.isSome_iff_exists.1 ((C09_broadcast_to_succeeds_iff a ha out).2 h1)
    obtain ⟨b', eb⟩ := Option.isSome_iff_exists.1 ((C09_broadcast_to_succeeds_iff b hb out).2 h2)
    simp [hs, ea, eb]

/-- C15: a binary operation with broadcasting gives `f(a[i], b[i])` at every index of the broadcast
shape, for every layout of both operands and on both the typed loops and the fallback. -/
theorem C15_binary (typed : Bool) (f : α → β → γ) (memA : Int → α) (memB : Int → β) (a b : View)
    (ha : a.WF) (hb : b.WF) (zero : γ) (r : Arr γ) (out : List Nat) (ho : IsBroadcast a.shape b.shape out)
    (h : binaryOp typed f memA memB a b zero = some r) :
    r.Is ⟨out, fun i => f (((a.denote memA).broadcast out).get i) (((b.denote memB).broadcast out).get i)⟩ := by
  unfold binaryOp at h
  rw [broadcastShapes_iff.2 ho] at h
  simp only [Option.bind_eq_bind, Option.bind_some, Option.bind_eq_some_iff] at h
  obtain ⟨a', ea, b', eb, h⟩ := h
  obtain ⟨wa, sa, ga⟩ := C09_broadcast_to memA a a' ha out ea
  obtain ⟨wb, sb, gb⟩ := C09_broadcast_to memB b b' hb out eb
  have hr : r = ⟨out, (indices out).map fun i => f (memA (a'.addr i)) (memB (b'.addr i))⟩ := by
    cases typed
    · rw [mapBinaryFallback_eq] at h
      simpa using h.symm
    · rw [mapBinary_eq f memA memB wa wb (out := out) sa sb] at h
      simpa using h.symm
  rw [hr]
  refine ⟨rfl, ?_⟩
  apply List.map_congr_left
  intro i hi
  have hi := mem_indices.1 hi
  have sa' : (a'.denote memA).shape = out := sa
  have sb' : (b'.denote memB).shape = out := sb
  have e1 := ga i (by rwa [sa'])
  have e2 := gb i (by rwa [sb'])
  dsimp only
  rw [← e1, ← e2]
  rfl

/-- C15: operands that look the same give the same result, whatever their strides, offsets and
flags. -/
theorem C15_layout_independent (typed typed' : Bool) (f : α → β → γ) (memA memA' : Int → α) (memB memB' : Int → β)
    (a a' b b' : View) (ha : a.WF) (hb : b.WF) (ha' : a'.WF) (hb' : b'.WF)
    (ea : (a.denote memA).Same (a'.denote memA')) (eb : (b.denote memB).Same (b'.denote memB')) (zero : γ) :
    binaryOp typed f memA memB a b zero = binaryOp typed' f memA' memB' a' b' zero := by
  have sa : a.shape = a'.shape := ea.1
  have sb : b.shape = b'.shape := eb.1
  by_cases hx : ∃ out, IsBroadcast a.shape b.shape out
  · have h1 := (C15_binary_succeeds_iff typed f memA memB a b ha hb zero).2 hx
    have h2 := (C15_binary_succeeds_iff typed' f memA' memB' a' b' ha' hb' zero).2 (by rwa [← sa, ← sb])
    obtain ⟨out, ho⟩ := hx
    obtain ⟨r, er⟩ := Option.isSome_iff_exists.1 h1
    obtain ⟨r', er'⟩ := Option.isSome_iff_exists.1 h2
    obtain ⟨s1, d1⟩ := C15_binary typed f memA memB a b ha hb zero r out ho er
    obtain ⟨s2, d2⟩ := C15_binary typed' f memA' memB' a' b' ha' hb' zero r' out (by rwa [← sa, ← sb]) er'
    rw [er, er']
    obtain ⟨hA, hB, -⟩ := C09_broadcast_least _ _ _ (broadcastShapes_iff.2 ho)
    have hd : r.data = r'.data := by
      rw [d1, d2]
      apply List.map_congr_left
      intro i hi
      have hi : InShape out i := mem_indices.1 hi
      have e1 : ((a.denote memA).broadcast out).get i = ((a'.denote memA').broadcast out).get i := by
        unfold Nd.broadcast
        dsimp only
        rw [← ea.1]
        exact ea.2 _ (inShape_broadcast hA hi)
      have e2 : ((b.denote memB).broadcast out).get i = ((b'.denote memB').broadcast out).get i := by
        unfold Nd.broadcast
        dsimp only
        rw [← eb.1]
        exact eb.2 _ (inShape_broadcast hB hi)
      dsimp only
      rw [e1, e2]
    cases r; cases r'
    simp_all
  · have h1 := mt (C15_binary_succeeds_iff typed f memA memB a b ha hb zero).1 hx
    have h2 := mt (C15_binary_succeeds_iff typed' f memA' memB' a' b' ha' hb' zero).1 (by rwa [← sa, ← sb])
    rw [Option.not_isSome_iff_eq_none] at h1 h2
    rw [h1, h2]

/-- A reversed and a transposed operand, a broadcast one, and their sum. -/
example : binaryOp true (· + ·) (fun p => p) (fun p => p) ⟨8, [2], [-8], 8, false, false⟩ (View.fresh [2, 1] 8) 0 =
    some ⟨[2, 2], [8, 0, 16, 8]⟩ := by
  unfold binaryOp
  rw [show broadcastShapes [2] (View.fresh [2, 1] 8).shape = some [2, 2] by
    simp [broadcastShapes, broadcastShapesRev, View.fresh]]
  decide
example : mapUnary (· * 2) (fun p => p) ⟨0, [2, 3], [8, 16], 8, false, true⟩ (0 : Int) =
    ⟨[2, 3], [0, 32, 64, 16, 48, 80]⟩ := by decide

/-! ### C52 clip -/

/-- C52: `clip` limits every element to the bounds that were given; when both are, it is
`minimum(maximum(a, lo), hi)`. -/
theorem C52_clip [LinearOrder α] (lo hi : Option α) (mem : Int → α) (v : View) (hw : v.WF) (zero : α) :
    (clip lo hi mem v zero).Is ⟨v.shape, fun i =>
      let x := (v.denote mem).get i
      let y := match lo with
        | some l => max x l
        | none => x
      match hi with
      | some h => min y h
      | none => y⟩ := by
  rw [clip_eq lo hi mem hw]
  refine ⟨rfl, ?_⟩
  apply List.map_congr_left
  intro i _
  simp only [clipValue, View.denote]
  have h1 : ∀ x m : α, (if x < m then m else x) = max x m := fun x m => by
    split
    · next h => exact (max_eq_right h.le).symm
    · next h => exact (max_eq_left (not_lt.1 h)).symm
  have h2 : ∀ x m : α, (if m < x then m else x) = min x m := fun x m => by
    split
    · next h => exact (min_eq_right h.le).symm
    · next h => exact (min_eq_left (not_lt.1 h)).symm
  cases lo <;> cases hi <;> simp only [h1, h2]

example : clip (some 3) (some 5) (fun p => p) ⟨32, [5], [-8], 8, false, false⟩ (0 : Int) = ⟨[5], [5, 5, 5, 5, 3]⟩ := by
  decide

/-! ### C52 where -/

/-- C52: `where` succeeds exactly when the three shapes broadcast together. -/
theorem C52_where_succeeds_iff (memC : Int → BitVec 8) (memX memY : Int → α) (c x y : View)
    (hc : c.WF) (hx : x.WF) (hy : y.WF) (zero : α) :
    (whereSelect memC memX memY c x y zero).isSome ↔
      ∃ cx out, IsBroadcast c.shape x.shape cx ∧ IsBroadcast cx y.shape out := by
  unfold whereSelect
  constructor
  · intro h
    cases h1 : broadcastShapes c.shape x.shape with
    | none => simp [h1] at h
    | some cx =>
      cases h2 : broadcastShapes cx y.shape with
      | none => simp [h1, h2] at h
      | some out => exact ⟨cx, out, broadcastShapes_iff.1 h1, broadcastShapes_iff.1 h2⟩
  · rintro ⟨cx, out, h1, h2⟩
    have h1 := broadcastShapes_iff.2 h1
    have h2 := broadcastShapes_iff.2 h2
    obtain ⟨c', x', y', ec, ex, ey⟩ := where_views hc hx hy h1 h2
    simp [h1, h2, whereTyped_eq memC memX memY hc hx hy ec ex ey]

/-- C52 (partial): `where` picks from `x` where the condition is true and from `y` elsewhere, with
broadcasting, for every layout, when the condition's elements are one byte (bool, int8, uint8).
Missing: wider condition elements in a strided condition, see the counterexample. -/
theorem C52_where_partial (memC : Int → BitVec 8) (memX memY : Int → α) (c x y : View)
    (hc : c.WF) (hx : x.WF) (hy : y.WF) (h1 : c.item = 1) (zero : α) (r : Arr α) (cx out : List Nat)
    (hcx : IsBroadcast c.shape x.shape cx) (ho : IsBroadcast cx y.shape out)
    (h : whereSelect memC memX memY c x y zero = some r) :
    r.Is ⟨out, fun i => if ((c.denote memC).broadcast out).get i ≠ 0#8 then ((x.denote memX).broadcast out).get i
      else ((y.denote memY).broadcast out).get i⟩ := by
  unfold whereSelect at h
  have e1 := broadcastShapes_iff.2 hcx
  have e2 := broadcastShapes_iff.2 ho
  obtain ⟨c', x', y', ec, ex, ey⟩ := where_views hc hx hy e1 e2
  simp only [e1, e2, Option.bind_eq_bind, Option.bind_some, whereTyped_eq memC memX memY hc hx hy ec ex ey,
    Option.some.injEq] at h
  rw [← h]
  refine ⟨rfl, ?_⟩
  apply List.map_congr_left
  intro i hi
  have hi := mem_indices.1 hi
  dsimp only
  rw [← denote_broadcast memC hc ec hi, ← denote_broadcast memX hx ex hi, ← denote_broadcast memY hy ey hi]
  simp [h1, anyByte, View.denote]

/-- C52 (partial): when the three operands are contiguous after broadcasting, a condition element
counts as true exactly when its bytes are not all zero, so `where` picks by the truth of an
integer of any width. -/
theorem C52_where_contiguous_partial (memC : Int → BitVec 8) (memX memY : Int → α) (c x y : View)
    (hc : c.WF) (hx : x.WF) (hy : y.WF) (fc : c.cFlag = true) (fx : x.cFlag = true) (fy : y.cFlag = true)
    (s1 : x.shape = c.shape) (s2 : y.shape = c.shape) (zero : α) :
    ∃ r, whereSelect memC memX memY c x y zero = some r ∧
      r.Is ⟨c.shape, fun i => if ∃ j < c.item, memC (c.addr i + j) ≠ 0#8 then (x.denote memX).get i
        else (y.denote memY).get i⟩ := by
  have e1 : broadcastShapes c.shape x.shape = some c.shape := by rw [s1]; exact (C09_broadcast_unit _).1
  have e2 : broadcastShapes c.shape y.shape = some c.shape := by rw [s2]; exact (C09_broadcast_unit _).1
  obtain ⟨c', x', y', ec, ex, ey⟩ := where_views hc hx hy e1 e2
  have hr : whereSelect memC memX memY c x y zero = whereTyped memC memX memY c x y c.shape zero := by
    unfold whereSelect
    simp only [e1, e2, Option.bind_eq_bind, Option.bind_some]
  rw [hr, whereTyped_eq memC memX memY hc hx hy ec ex ey]
  refine ⟨_, rfl, rfl, ?_⟩
  apply List.map_congr_left
  intro i hi
  have hi : InShape c.shape i := mem_indices.1 hi
  have hf : ∀ {v v' : View}, v.WF → v.cFlag = true → v.shape = c.shape → v.broadcastTo c.shape = some v' →
      v'.cFlag = true ∧ v'.addr i = v.addr i := broadcastTo_self hi
  obtain ⟨g1, a1⟩ := hf hc fc rfl ec
  obtain ⟨g2, a2⟩ := hf hx fx s1 ex
  obtain ⟨g3, a3⟩ := hf hy fy s2 ey
  simp only [g1, g2, g3, a1, a2, a3, Bool.and_self, if_true, View.denote]
  congr 1
  simp [anyByte]

/-- C52: a strided condition with elements wider than a byte is misread: for the int16 array
`[256, 256]` viewed in reverse, `where(c, 1, 2)` picks `2` (only the low byte is tested). -/
theorem C52_where_strided_counterexample :
    let mem : Int → BitVec 8 := fun p => if p = 1 ∨ p = 3 then 1#8 else 0#8
    whereSelect mem (fun _ => 1) (fun _ => 2) ⟨2, [2], [-2], 2, false, false⟩ (View.fresh [2] 8) (View.fresh [2] 8) 0
      = some ⟨[2], [2, 2]⟩ := by
  intro mem
  unfold whereSelect
  have : broadcastShapes [2] (View.fresh [2] 8).shape = some [2] := (C09_broadcast_unit [2]).1
  simp only [this, Option.bind_eq_bind, Option.bind_some]
  decide

/-- C52: the same happens for a contiguous float condition as soon as one operand is broadcast:
`where(array([1.0, 1.0]), x, scalar)` picks the scalar (the bytes of `1.0` are `00 .. 00 f0 3f`). -/
theorem C52_where_float_counterexample :
    let mem : Int → BitVec 8 := fun p => if p % 8 = 7 then 0x3f#8 else if p % 8 = 6 then 0xf0#8 else 0#8
    whereSelect mem (fun _ => 1) (fun _ => 2) (View.fresh [2] 8) (View.fresh [2] 8) (View.fresh [1] 8) 0
      = some ⟨[2], [2, 2]⟩ := by
  intro mem
  unfold whereSelect
  have h1 : broadcastShapes (View.fresh [2] 8).shape (View.fresh [2] 8).shape = some [2] := (C09_broadcast_unit [2]).1
  have h2 : broadcastShapes [2] (View.fresh [1] 8).shape = some [2] := by
    simp [broadcastShapes, broadcastShapesRev, View.fresh]
  simp only [h1, h2, Option.bind_eq_bind, Option.bind_some]
  decide

example : whereSelect (fun p => if p = 0 then 1#8 else 0#8) (fun p => p) (fun p => -p) (View.fresh [2, 1] 1)
    (View.fresh [2] 8) (View.fresh [2] 8) 0 = some ⟨[2, 2], [0, 8, 0, -8]⟩ := by
  unfold whereSelect
  rw [show broadcastShapes (View.fresh [2, 1] 1).shape (View.fresh [2] 8).shape = some [2, 2] by
    simp [broadcastShapes, broadcastShapesRev, View.fresh]]
  rw [Option.bind_eq_bind, Option.bind_some,
    show broadcastShapes [2, 2] (View.fresh [2] 8).shape = some [2, 2] by
      simp [broadcastShapes, broadcastShapesRev, View.fresh]]
  decide

end Props
