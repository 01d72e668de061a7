import Verif.Model.Elementwise
import Verif.Lemmas.Select
/-!
# Lemmas: element-wise loops
-/

namespace Rumpy
open Spec

theorem rank_append : ∀ {a i : List Nat} (b j : List Nat), i.length = a.length →
    rank (a ++ b) (i ++ j) = rank a i * size b + rank b j
  | [], [], b, j, _ => by simp [rank]
  | n :: a, k :: i, b, j, h => by
    simp only [List.cons_append, rank, rank_append b j (by simpa using h : i.length = a.length), size_append]
    rw [Nat.add_mul, Nat.mul_assoc, Nat.add_assoc]

theorem inShape_append_iff : ∀ {a i : List Nat} {b j : List Nat}, i.length = a.length →
    (InShape (a ++ b) (i ++ j) ↔ InShape a i ∧ InShape b j)
  | [], [], b, j, _ => by simp [InShape]
  | n :: a, k :: i, b, j, h => by
    simp only [List.cons_append, InShape, inShape_append_iff (by simpa using h : i.length = a.length), and_assoc]

/-- A flat loop fills the array when the value at each row-major position is the wanted one. -/
theorem writes_simple {s : List Nat} {val : Nat → γ} {g : List Nat → γ} {d : List γ}
    (hd : d.length = size s) (h : ∀ idx, InShape s idx → val (rank s idx) = g idx) :
    writes (simpleStores 0 (size s) val) d = (indices s).map g := by
  have e : simpleStores 0 (size s) val = (indices s).map fun idx => (rank s idx, val (rank s idx)) := by
    unfold simpleStores
    rw [← map_rank_indices, List.map_map]
    simp [Function.comp_def]
  rw [e, writes_indices s (fun idx => val (rank s idx)) d hd]
  exact List.map_congr_left fun idx hi => h idx (mem_indices.1 hi)

/-- Row loops fill the array. -/
theorem writes_rows {outer : List Nat} {inner : Nat} {val : List Nat → Nat → γ} {g : List Nat → γ} {d : List γ}
    (hd : d.length = size (outer ++ [inner]))
    (h : ∀ o j, InShape outer o → j < inner → val o j = g (o ++ [j])) :
    writes (rowStores outer inner val) d = (indices (outer ++ [inner])).map g := by
  have e : rowStores outer inner val =
      (indices (outer ++ [inner])).map fun idx => (rank (outer ++ [inner]) idx, g idx) := by
    unfold rowStores simpleStores
    rw [odometerAll_eq, indices_zipIdx, List.flatMap_map, indices_append, List.map_flatMap]
    apply List.flatMap_congr
    intro o ho
    rw [indices_singleton]
    simp only [List.map_map]
    apply List.map_congr_left
    intro j hj
    have ho := mem_indices.1 ho
    have hj : j < inner := by simpa using hj
    simp [rank_append [inner] [j] ho.length_eq, rank, size, h o j ho hj]
  rw [e, writes_indices _ g d hd]

theorem cFlag_addr {v : View} (hw : v.WF) (hc : v.cFlag = true) {idx : List Nat} (hi : InShape v.shape idx) :
    v.addr idx = v.offset + (rank v.shape idx : Nat) * (v.item : Int) := by
  unfold View.addr
  rw [isC_sound hw.len (hw.c hc) hi]
  push_cast
  rw [Int.mul_comm]

theorem take_append_getD {s : List Nat} (h : 2 ≤ s.length) :
    s.take (s.length - 1) ++ [s.getD (s.length - 1) 0] = s := by
  have hne : s ≠ [] := by rintro rfl; simp at h
  conv_rhs => rw [← List.dropLast_append_getLast hne]
  rw [List.dropLast_eq_take, List.getLast_eq_getElem, List.getD_eq_getElem _ _ (by omega)]

theorem byteOffset_take : ∀ (o : List Nat) (st : List Int), byteOffset o st = byteOffset o (st.take o.length)
  | [], st => by cases st <;> simp [byteOffset]
  | i :: o, [] => by simp [byteOffset]
  | i :: o, s :: st => by
    simp only [List.length_cons, List.take_succ_cons, byteOffset]
    rw [byteOffset_take o st]

theorem byteOffset_snoc : ∀ {o : List Nat} {j : Nat} {st : List Int}, st.length = o.length + 1 →
    byteOffset (o ++ [j]) st = byteOffset o st + st.getD o.length 0 * j
  | [], j, [s], _ => by simp [byteOffset, Int.mul_comm]
  | [], j, [], h => by simp at h
  | [], j, _ :: _ :: _, h => by simp at h
  | i :: o, j, [], h => by simp at h
  | i :: o, j, s :: st, h => by
    have := byteOffset_snoc (o := o) (j := j) (st := st) (by simpa using h)
    simp only [List.cons_append, byteOffset, this, List.length_cons, List.getD_cons_succ]
    rw [Int.add_assoc]

/-- Address used by the one-dimensional loop. -/
theorem stride1_addr {v : View} (hw : v.WF) (hn : v.shape.length ≤ 1) {idx : List Nat} (hi : InShape v.shape idx) :
    v.offset + stride1 v.shape.length v * (rank v.shape idx : Nat) = v.addr idx := by
  have hl := hw.len
  unfold View.addr stride1
  rcases hs : v.shape with _ | ⟨n, _ | ⟨m, s⟩⟩
  · rw [hs] at hi
    cases idx with
    | nil => simp [byteOffset, rank]
    | cons => simp [InShape] at hi
  · rw [hs] at hi hl
    rcases idx with _ | ⟨i, _ | ⟨k, idx⟩⟩
    · simp [InShape] at hi
    · rcases hst : v.strides with _ | ⟨st, _ | _⟩
      · simp [hst] at hl
      · simp [byteOffset, rank, size, Int.mul_comm]
      · simp [hst] at hl
    · simp [InShape] at hi
  · simp [hs] at hn

/-- Address used by the row loops. -/
theorem row_addr {v : View} (hw : v.WF) (hn : 2 ≤ v.shape.length) {o : List Nat} {j : Nat}
    (ho : InShape (v.shape.take (v.shape.length - 1)) o) :
    v.offset + byteOffset o v.strides + v.strides.getD (v.shape.length - 1) 0 * j = v.addr (o ++ [j]) := by
  have hl := hw.len
  have hol : o.length = v.shape.length - 1 := by rw [ho.length_eq, List.length_take]; omega
  unfold View.addr
  rw [byteOffset_snoc (by omega), hol, Int.add_assoc]

theorem mapUnary_eq (f : α → γ) (mem : Int → α) {v : View} (hw : v.WF) (zero : γ) :
    mapUnary f mem v zero = ⟨v.shape, (indices v.shape).map fun i => f (mem (v.addr i))⟩ := by
  unfold mapUnary
  dsimp only
  rw [sizeOf_eq]
  split
  · next h0 =>
    have : indices v.shape = [] := List.eq_nil_of_length_eq_zero (by rw [length_indices, h0])
    simp [h0, this]
  · split
    · next hc =>
      rw [writes_simple (g := fun i => f (mem (v.addr i))) (by simp)]
      intro idx hi
      simp only [cFlag_addr hw hc hi]
    · split
      · next hn =>
        rw [writes_simple (g := fun i => f (mem (v.addr i))) (by simp)]
        intro idx hi
        simp only [stride1_addr hw hn hi]
      · next hn =>
        have hn : 2 ≤ v.shape.length := by omega
        have hs := take_append_getD hn
        have := writes_rows (outer := v.shape.take (v.shape.length - 1))
          (inner := v.shape.getD (v.shape.length - 1) 0) (g := fun i => f (mem (v.addr i)))
          (val := fun oi j => f (mem (v.offset + byteOffset oi v.strides +
            v.strides.getD (v.shape.length - 1) 0 * j)))
          (d := List.replicate (size v.shape) zero) (by rw [hs]; simp)
          (fun o j ho hj => by simp only [row_addr hw hn ho])
        rw [hs] at this
        rw [this]

theorem mapBinary_eq (f : α → β → γ) (memA : Int → α) (memB : Int → β) {a b : View} (ha : a.WF) (hb : b.WF)
    {out : List Nat} (hsa : a.shape = out) (hsb : b.shape = out) (zero : γ) :
    mapBinary f memA memB a b out zero =
      ⟨out, (indices out).map fun i => f (memA (a.addr i)) (memB (b.addr i))⟩ := by
  unfold mapBinary
  dsimp only
  rw [sizeOf_eq]
  split
  · next h0 =>
    have : indices out = [] := List.eq_nil_of_length_eq_zero (by rw [length_indices, h0])
    simp [h0, this]
  · split
    · next hc =>
      simp only [Bool.and_eq_true] at hc
      rw [writes_simple (g := fun i => f (memA (a.addr i)) (memB (b.addr i))) (by simp)]
      intro idx hi
      rw [cFlag_addr ha hc.1.1 (by rwa [hsa]), cFlag_addr hb hc.2.1 (by rwa [hsb]), hsa, hsb]
    · split
      · next hn =>
        rw [writes_simple (g := fun i => f (memA (a.addr i)) (memB (b.addr i))) (by simp)]
        intro idx hi
        rw [← stride1_addr ha (by rwa [hsa]) (by rwa [hsa]), ← stride1_addr hb (by rwa [hsb]) (by rwa [hsb]), hsa, hsb]
      · next hn =>
        have hn : 2 ≤ out.length := by omega
        have hs := take_append_getD hn
        have := writes_rows (outer := out.take (out.length - 1))
          (inner := out.getD (out.length - 1) 0) (g := fun i => f (memA (a.addr i)) (memB (b.addr i)))
          (val := fun oi j => f (memA (a.offset + byteOffset oi a.strides + a.strides.getD (out.length - 1) 0 * j))
            (memB (b.offset + byteOffset oi b.strides + b.strides.getD (out.length - 1) 0 * j)))
          (d := List.replicate (size out) zero) (by rw [hs]; simp)
          (fun o j ho hj => by
            rw [← row_addr ha (by rwa [hsa]) (by rwa [hsa]), ← row_addr hb (by rwa [hsb]) (by rwa [hsb]), hsa, hsb])
        rw [hs] at this
        rw [this]

theorem mapBinaryFallback_eq (f : α → β → γ) (memA : Int → α) (memB : Int → β) (a b : View)
    (out : List Nat) (zero : γ) :
    mapBinaryFallback f memA memB a b out zero =
      ⟨out, (indices out).map fun i => f (memA (a.addr i)) (memB (b.addr i))⟩ := by
  unfold mapBinaryFallback
  dsimp only
  rw [sizeOf_eq]
  split
  · next h0 =>
    have : indices out = [] := List.eq_nil_of_length_eq_zero (by rw [length_indices, h0])
    simp [h0, this]
  · rw [writes_odometer out (fun i : List Nat => f (memA (a.addr i)) (memB (b.addr i))) _ (by simp)]

theorem writes_addrs {v : View} (hw : v.WF) (f : Int → γ) (d : List γ) (hd : d.length = size v.shape) :
    writes (v.addrs.zipIdx.map fun oi => (oi.2, f oi.1)) d = (indices v.shape).map fun i => f (v.addr i) := by
  rw [writes_zipIdx f _ d (by rw [addrs_eq hw, List.length_map, length_indices, hd]), addrs_eq hw, List.map_map]
  rfl

theorem mapUnaryFallback_eq (f : α → γ) (mem : Int → α) {v : View} (hw : v.WF) (zero : γ) :
    mapUnaryFallback f mem v zero = ⟨v.shape, (indices v.shape).map fun i => f (mem (v.addr i))⟩ := by
  unfold mapUnaryFallback
  dsimp only
  rw [sizeOf_eq]
  split
  · next h0 =>
    have : indices v.shape = [] := List.eq_nil_of_length_eq_zero (by rw [length_indices, h0])
    simp [h0, this]
  · rw [writes_addrs hw (fun p => f (mem p)) _ (by simp)]

theorem clip_eq [LT α] [DecidableLT α] (lo hi : Option α) (mem : Int → α) {v : View} (hw : v.WF) (zero : α) :
    clip lo hi mem v zero = ⟨v.shape, (indices v.shape).map fun i => clipValue lo hi (mem (v.addr i))⟩ := by
  unfold clip
  dsimp only
  rw [sizeOf_eq]
  split
  · next h0 =>
    have : indices v.shape = [] := List.eq_nil_of_length_eq_zero (by rw [length_indices, h0])
    simp [h0, this]
  · split
    · next hc =>
      rw [writes_simple (g := fun i => clipValue lo hi (mem (v.addr i))) (by simp)]
      intro idx hi
      simp only [cFlag_addr hw hc hi]
    · rw [writes_addrs hw (fun p => clipValue lo hi (mem p)) _ (by simp)]

theorem inShape_broadcast {s t idx : List Nat} (h : BroadcastsTo s t) (hi : InShape t idx) :
    InShape s (List.zipWith (fun d i => if d = 1 then 0 else i) s (idx.drop (t.length - s.length))) := by
  obtain ⟨v', e⟩ := Option.isSome_iff_exists.1 ((broadcastTo_isSome (View.WF.fresh s 1)).2 h)
  exact (broadcastTo_addr (View.WF.fresh s 1) e).2.2.2 idx hi

theorem broadcastTo_item {v v' : View} {t : List Nat} (h : v.broadcastTo t = some v') : v'.item = v.item := by
  unfold View.broadcastTo at h
  dsimp only at h
  split at h
  · simp at h
  · split at h
    · simp at h
    · simp only [Option.some.injEq] at h
      rw [← h]
      rfl

theorem broadcastLoop_self : ∀ {s : List Nat} {st : List Int}, st.length = s.length →
    View.broadcastLoop s st s = some st
  | [], [], _ => rfl
  | n :: s, t :: st, h => by
    simp [View.broadcastLoop, broadcastLoop_self (by simpa using h : st.length = s.length)]

theorem broadcastTo_self {s i : List Nat} (_hi : InShape s i) {v v' : View} (hw : v.WF) (hc : v.cFlag = true)
    (hs : v.shape = s) (h : v.broadcastTo s = some v') : v'.cFlag = true ∧ v'.addr i = v.addr i := by
  subst hs
  unfold View.broadcastTo at h
  simp only [Nat.lt_irrefl, if_false, Nat.sub_self, List.drop_zero, broadcastLoop_self hw.len, List.replicate_zero,
    List.nil_append, Option.some.injEq] at h
  rw [← h]
  refine ⟨?_, by simp [View.addr, View.viewWith]⟩
  exact hw.c hc

theorem whereTyped_eq (memC : Int → BitVec 8) (memX memY : Int → α) {c x y c' x' y' : View} {out : List Nat}
    (hc : c.WF) (hx : x.WF) (hy : y.WF) (ec : c.broadcastTo out = some c') (ex : x.broadcastTo out = some x')
    (ey : y.broadcastTo out = some y') (zero : α) :
    whereTyped memC memX memY c x y out zero =
      some ⟨out, (indices out).map fun i =>
        if (if c'.cFlag && x'.cFlag && y'.cFlag then anyByte memC c.item (c'.addr i) else memC (c'.addr i) != 0#8)
        then memX (x'.addr i) else memY (y'.addr i)⟩ := by
  obtain ⟨wc, sc, -⟩ := broadcastTo_addr hc ec
  obtain ⟨wx, sx, -⟩ := broadcastTo_addr hx ex
  obtain ⟨wy, sy, -⟩ := broadcastTo_addr hy ey
  unfold whereTyped
  rw [sizeOf_eq]
  simp only [ec, ex, ey, Option.bind_eq_bind, Option.bind_some]
  split
  · next h0 =>
    have : indices out = [] := List.eq_nil_of_length_eq_zero (by rw [length_indices, h0])
    simp [h0, this]
  · split
    · next hf =>
      simp only [Bool.and_eq_true] at hf
      rw [writes_simple (g := fun i => if anyByte memC c.item (c'.addr i) then memX (x'.addr i) else memY (y'.addr i))
        (by simp)]
      intro idx hi
      rw [cFlag_addr wc hf.1.1 (by rwa [sc]), cFlag_addr wx hf.1.2 (by rwa [sx]), cFlag_addr wy hf.2 (by rwa [sy]),
        sc, sx, sy, broadcastTo_item ec]
      congr 1
      by_cases h1 : c.item = 1
      · simp [h1, anyByte]
      · simp [h1]
    · next hf =>
      congr 2
      have e : (c'.addrs.zip x'.addrs).zip y'.addrs =
          (indices out).map fun i => ((c'.addr i, x'.addr i), y'.addr i) := by
        rw [addrs_eq wc, addrs_eq wx, addrs_eq wy, sc, sx, sy]
        generalize indices out = l
        induction l with
        | nil => rfl
        | cons i l ih => simp [ih]
      rw [writes_zipIdx (fun q : (Int × Int) × Int => if memC q.1.1 != 0#8 then memX q.1.2 else memY q.2) _ _
        (by rw [e]; simp [length_indices]), e, List.map_map]
      rfl

end Rumpy
