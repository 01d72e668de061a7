import Verif.Lemmas.Copyto
import Verif.Props.Assign
import Verif.Props.Cast
import Verif.Props.Layout
/-!
# C83: copyto, ascontiguousarray, asfortranarray, require
-/

namespace Props
open Spec Rumpy

/-! ### Copying into an array -/

/-- The memory cell of each element of a view. -/
def cellsOf (v : View) : Nd Int := ⟨v.shape, v.addr⟩

/-- No byte of an element of one view belongs to an element of the other. -/
def NoOverlap (v w : View) : Prop :=
  ∀ i j, InShape v.shape i → InShape w.shape j → v.addr i + v.item ≤ w.addr j ∨ w.addr j + w.item ≤ v.addr i

theorem zipWith_self_index : ∀ {s idx : List Nat}, InShape s idx → List.zipWith (fun d i => if d = 1 then 0 else i) s idx = idx
  | [], [], _ => rfl
  | n :: s, i :: idx, h => by
    rw [List.zipWith_cons_cons, zipWith_self_index h.2]
    congr 1
    split
    · have := h.1; omega
    · rfl

/-- A view that broadcasts to a shape, after it was broadcast. -/
theorem fitTo_spec {v : View} (hw : v.WF) {t : List Nat} (h : BroadcastsTo v.shape t) :
    ∃ s, fitTo v t = some s ∧ s.WF ∧ s.shape = t ∧ s.item = v.item ∧
      ∀ i, InShape t i → s.addr i = ((cellsOf v).broadcast t).get i ∧ ∃ j, InShape v.shape j ∧ ((cellsOf v).broadcast t).get i = v.addr j := by
  unfold fitTo
  by_cases he : v.shape = t
  · refine ⟨v, by rw [if_neg (by simp [he])], hw, he, rfl, fun i hi => ?_⟩
    have e : ((cellsOf v).broadcast t).get i = v.addr i := by
      show v.addr (List.zipWith _ v.shape (i.drop (t.length - v.shape.length))) = _
      rw [he, Nat.sub_self, List.drop_zero, zipWith_self_index hi]
    exact ⟨e.symm, i, by rw [he]; exact hi, e⟩
  · rw [if_pos he]
    obtain ⟨s, hs⟩ := Option.isSome_iff_exists.1 ((broadcastTo_isSome hw).2 h)
    obtain ⟨h1, h2, h3, h4⟩ := broadcastTo_addr hw hs
    refine ⟨s, hs, h1, h2, ?_, fun i hi => ⟨h3 i hi, _, h4 i hi, rfl⟩⟩
    unfold View.broadcastTo at hs
    split at hs
    · simp at hs
    · dsimp only at hs
      split at hs
      · simp at hs
      · simp only [Option.some.injEq] at hs
        rw [← hs]; rfl

theorem fitTo_isSome {v : View} (hw : v.WF) {t : List Nat} : (fitTo v t).isSome ↔ BroadcastsTo v.shape t := by
  constructor
  · intro h
    unfold fitTo at h
    split at h
    · exact (broadcastTo_isSome hw).1 h
    · next he =>
      have he : v.shape = t := not_not.1 he
      rw [he]
      exact ⟨le_refl _, fun k _ => Or.inr rfl⟩
  · intro h
    obtain ⟨s, hs, _⟩ := fitTo_spec hw h
    rw [hs]; rfl

theorem putF64_numeric {b : DType} (hb : b.Numeric) (x : Flt ℚ) : putF64 b x = some (writeF64 b x) := by
  cases b <;> first | rfl | exact hb.elim

/-- What passes through `f64` is converted as NumPy promises. -/
theorem throughF64_converts {a b : DType} (ha : a.Real) (hb : b.Numeric) {x : Elem} (hx : x.OfType a)
    (hint : ∀ n, x = .int n → n.natAbs ≤ 2 ^ 53 ∧ ∀ lo hi, b.intRange = some (lo, hi) → lo ≤ n ∧ n ≤ hi) :
    Converts b x (writeF64 b (readOrZero x)) := by
  obtain ⟨u, h1, h2, h3⟩ := readF64_real ha hx fun n hn => (hint n hn).1
  have : readOrZero x = u := by unfold readOrZero; rw [h1]; rfl
  rw [this]
  exact writeF64_converts hb h2 h3 fun n lo hi hn => (hint n hn).2 lo hi

theorem ne_of_noOverlap {v w : View} (h : NoOverlap v w) (hv : 0 < v.item) (hw : 0 < w.item) {i j : List Nat} (hi : InShape v.shape i)
    (hj : InShape w.shape j) : v.addr i ≠ w.addr j := by
  have := h i j hi hj
  omega

theorem truthy_iff {c : DType} (hc : c.Real) {x : Elem} (hx : x.OfType c) : fltEq (readOrZero x) (.num 0) = false ↔ x.Truthy := by
  unfold Elem.Truthy readOrZero
  cases x with
  | bool b => cases b <;> simp [readF64, fltEq, Elem.number]
  | int n => simp [readF64, fltEq, Elem.number, intToF64_zero_iff]
  | flt u => cases u <;> simp [readF64, fltEq, Elem.number]
  | cpx u v => cases c <;> first | exact hc.elim | exact hx.elim
  | text t => cases c <;> first | exact hc.elim | exact hx.elim

/-- The loop without a mask. -/
theorem copyLoop_spec {b : DType} (hb : b.Numeric) (mem : Int → Elem) {dst s : View} (hw : dst.WF) (sw : s.WF) (hsh : s.shape = dst.shape)
    (hs : Separate dst) (hno : ∀ i j, InShape dst.shape i → InShape dst.shape j → dst.addr i ≠ s.addr j) :
    (∀ i, InShape dst.shape i → (dst.addrs.zip s.addrs).foldl (fun m p => copyStep b m p.1 p.2) mem (dst.addr i)
      = writeF64 b (readOrZero (mem (s.addr i)))) ∧
    (∀ p, (∀ i, InShape dst.shape i → dst.addr i ≠ p) →
      (dst.addrs.zip s.addrs).foldl (fun m p => copyStep b m p.1 p.2) mem p = mem p) := by
  rw [addrs_eq hw, addrs_eq sw, hsh, zip_map_self, List.foldl_map]
  obtain ⟨h1, h2⟩ := foldl_stores (fun m i => putF64 b (readOrZero (m (s.addr i)))) dst.addr (fun i p => p = s.addr i)
    (fun m i => copyStep b m (dst.addr i) (s.addr i)) (fun m i => rfl)
    (fun i m m' h => by rw [h _ rfl]) (indices dst.shape) mem (by
      apply List.Pairwise.imp_of_mem _ (indices_pairwise_rank dst.shape)
      intro i j hi hj hlt
      have hi := mem_indices.1 hi
      have hj := mem_indices.1 hj
      refine ⟨fun e => ?_, fun p hp => hp ▸ hno i j hi hj⟩
      rw [hs i j hi hj e] at hlt
      omega)
  refine ⟨fun i hi => h1 i (mem_indices.2 hi) _ (putF64_numeric hb _), fun p hp => h2 p fun i hi _ => hp i (mem_indices.1 hi)⟩

/-- The loop with a mask. -/
theorem maskedLoop_spec {b : DType} (hb : b.Numeric) (mem : Int → Elem) {dst s w : View} (hw : dst.WF) (sw : s.WF) (ww : w.WF)
    (hsh : s.shape = dst.shape) (wsh : w.shape = dst.shape) (hs : Separate dst)
    (hno : ∀ i j, InShape dst.shape i → InShape dst.shape j → dst.addr i ≠ s.addr j)
    (hnw : ∀ i j, InShape dst.shape i → InShape dst.shape j → dst.addr i ≠ w.addr j) :
    (∀ i, InShape dst.shape i → fltEq (readOrZero (mem (w.addr i))) (.num 0) = false →
      ((dst.addrs.zip s.addrs).zip w.addrs).foldl (fun m p => maskedStep b m p.1.1 p.1.2 p.2) mem (dst.addr i)
      = writeF64 b (readOrZero (mem (s.addr i)))) ∧
    (∀ p, (∀ i, InShape dst.shape i → fltEq (readOrZero (mem (w.addr i))) (.num 0) = false → dst.addr i ≠ p) →
      ((dst.addrs.zip s.addrs).zip w.addrs).foldl (fun m p => maskedStep b m p.1.1 p.1.2 p.2) mem p = mem p) := by
  rw [addrs_eq hw, addrs_eq sw, addrs_eq ww, hsh, wsh, zip_map_self, zip_map_self, List.foldl_map]
  obtain ⟨h1, h2⟩ := foldl_stores
    (fun m i => if !fltEq (readOrZero (m (w.addr i))) (.num 0) then putF64 b (readOrZero (m (s.addr i))) else none)
    dst.addr (fun i p => p = s.addr i ∨ p = w.addr i)
    (fun m i => maskedStep b m (dst.addr i) (s.addr i) (w.addr i)) (fun m i => by
      unfold maskedStep copyStep
      cases fltEq (readOrZero (m (w.addr i))) (.num 0) <;> rfl)
    (fun i m m' h => by rw [h _ (Or.inl rfl), h _ (Or.inr rfl)]) (indices dst.shape) mem (by
      apply List.Pairwise.imp_of_mem _ (indices_pairwise_rank dst.shape)
      intro i j hi hj hlt
      have hi := mem_indices.1 hi
      have hj := mem_indices.1 hj
      refine ⟨fun e => ?_, fun p hp => ?_⟩
      · rw [hs i j hi hj e] at hlt
        omega
      · rcases hp with rfl | rfl
        · exact hno i j hi hj
        · exact hnw i j hi hj)
  refine ⟨fun i hi hm => h1 i (mem_indices.2 hi) _ (by rw [hm]; exact putF64_numeric hb _), fun p hp => h2 p fun i hi hsome => ?_⟩
  apply hp i (mem_indices.1 hi)
  cases hm : fltEq (readOrZero (mem (w.addr i))) (.num 0) with
  | false => rfl
  | true => rw [hm] at hsome; simp at hsome

/-- Two contiguous arrays whose elements have no byte in common are two blocks that do not overlap. -/
theorem blocks_apart {dst s : View} (hw : dst.WF) (sw : s.WF) (hc : dst.cFlag = true) (sc : s.cFlag = true) (hsh : s.shape = dst.shape)
    (hit : s.item = dst.item) (hpos : 0 < dst.item) (hsz : 0 < size dst.shape)
    (hno : ∀ i j, InShape dst.shape i → InShape dst.shape j → dst.addr i + dst.item ≤ s.addr j ∨ s.addr j + s.item ≤ dst.addr i) :
    ¬(dst.offset < s.offset + ((size dst.shape * dst.item : Nat) : Int) ∧ s.offset < dst.offset + ((size dst.shape * dst.item : Nat) : Int)) := by
  rintro ⟨h1, h2⟩
  have ad : ∀ i, InShape dst.shape i → dst.addr i = dst.offset + ((dst.item * rank dst.shape i : Nat) : Int) := by
    intro i hi
    show dst.offset + byteOffset i dst.strides = _
    rw [C03_c_flag_sound dst.shape dst.strides dst.item hw.len (hw.c hc) i hi]
  have as : ∀ i, InShape dst.shape i → s.addr i = s.offset + ((dst.item * rank dst.shape i : Nat) : Int) := by
    intro i hi
    show s.offset + byteOffset i s.strides = _
    have := C03_c_flag_sound s.shape s.strides s.item sw.len (sw.c sc) i (by rw [hsh]; exact hi)
    rw [hsh, hit] at this
    rw [this]
  obtain ⟨z, hz, hz0⟩ : ∃ z, InShape dst.shape z ∧ rank dst.shape z = 0 := exists_rank hsz
  rw [hit] at hno
  generalize hn : size dst.shape = n at *
  generalize hT : dst.item = T at *
  by_cases hle : s.offset ≤ dst.offset
  · have hd := Int.mul_ediv_add_emod (dst.offset - s.offset) T
    have hm := Int.emod_nonneg (dst.offset - s.offset) (b := (T : Int)) (by omega)
    have hm' := Int.emod_lt_of_pos (dst.offset - s.offset) (b := (T : Int)) (by omega)
    obtain ⟨k, hk⟩ := Int.eq_ofNat_of_zero_le (a := (dst.offset - s.offset) / T) (Int.ediv_nonneg (by omega) (by omega))
    have hkn : k < n := by
      by_contra hge
      have : T * n ≤ T * k := Nat.mul_le_mul_left _ (by omega)
      rw [hk] at hd
      have : ((T * n : Nat) : Int) ≤ ((T * k : Nat) : Int) := by exact_mod_cast this
      push_cast at this h1
      rw [mul_comm] at h1
      omega
    obtain ⟨j, hj, hjr⟩ := exists_rank (s := dst.shape) (r := k) (by omega)
    have := hno z j hz hj
    rw [ad z hz, as j hj, hz0, hjr] at this
    push_cast at this
    rw [hk] at hd
    omega
  · have hd := Int.mul_ediv_add_emod (s.offset - dst.offset) T
    have hm := Int.emod_nonneg (s.offset - dst.offset) (b := (T : Int)) (by omega)
    have hm' := Int.emod_lt_of_pos (s.offset - dst.offset) (b := (T : Int)) (by omega)
    obtain ⟨k, hk⟩ := Int.eq_ofNat_of_zero_le (a := (s.offset - dst.offset) / T) (Int.ediv_nonneg (by omega) (by omega))
    have hkn : k < n := by
      by_contra hge
      have : T * n ≤ T * k := Nat.mul_le_mul_left _ (by omega)
      rw [hk] at hd
      have : ((T * n : Nat) : Int) ≤ ((T * k : Nat) : Int) := by exact_mod_cast this
      push_cast at this h2
      rw [mul_comm] at h2
      omega
    obtain ⟨j, hj, hjr⟩ := exists_rank (s := dst.shape) (r := k) (by omega)
    have := hno j z hj hz
    rw [ad j hj, as z hz, hz0, hjr] at this
    push_cast at this
    rw [hk] at hd
    omega

/-- The block copy. -/
theorem copyBlock_spec (mem : Int → Elem) {dst s : View} (hw : dst.WF) (sw : s.WF) (hc : dst.cFlag = true) (sc : s.cFlag = true)
    (hsh : s.shape = dst.shape) (hit : s.item = dst.item) (hpos : 0 < dst.item) (hsz : 0 < size dst.shape)
    (hno : ∀ i j, InShape dst.shape i → InShape dst.shape j → dst.addr i + dst.item ≤ s.addr j ∨ s.addr j + s.item ≤ dst.addr i) :
    ∃ new, copyBlock mem dst.offset s.offset dst.item (size dst.shape) = .done new ∧
      (∀ i, InShape dst.shape i → new (dst.addr i) = mem (s.addr i)) ∧
      (∀ p, (∀ i, InShape dst.shape i → dst.addr i ≠ p) → new p = mem p) := by
  unfold copyBlock
  rw [if_neg (blocks_apart hw sw hc sc hsh hit hpos hsz hno)]
  have ad : ∀ i, InShape dst.shape i → dst.addr i = dst.offset + ((rank dst.shape i * dst.item : Nat) : Int) := by
    intro i hi
    show dst.offset + byteOffset i dst.strides = _
    rw [C03_c_flag_sound dst.shape dst.strides dst.item hw.len (hw.c hc) i hi, Nat.mul_comm]
  have as : ∀ i, InShape dst.shape i → s.addr i = s.offset + ((rank dst.shape i * dst.item : Nat) : Int) := by
    intro i hi
    show s.offset + byteOffset i s.strides = _
    have := C03_c_flag_sound s.shape s.strides s.item sw.len (sw.c sc) i (by rw [hsh]; exact hi)
    rw [hsh, hit] at this
    rw [this, Nat.mul_comm]
  obtain ⟨h1, h2⟩ := foldl_block (fun k => mem (s.offset + ((k * dst.item : Nat) : Int))) (fun k => dst.offset + ((k * dst.item : Nat) : Int))
    (List.range (size dst.shape)) mem (by
      apply List.Pairwise.imp _ List.nodup_range
      intro i j hij e
      apply hij
      have : i * dst.item = j * dst.item := by omega
      exact Nat.eq_of_mul_eq_mul_right hpos this)
  refine ⟨_, rfl, fun i hi => ?_, fun p hp => h2 p fun k hk => ?_⟩
  · rw [ad i hi, as i hi]
    exact h1 (rank dst.shape i) (List.mem_range.2 (rank_lt hi))
  · obtain ⟨i, hi, hr⟩ := exists_rank (s := dst.shape) (r := k) (List.mem_range.1 hk)
    have := hp i hi
    rw [ad i hi, hr] at this
    exact this

/-- C83: `copyto` fills the destination with the values of the source, broadcast and converted to the dtype of the
destination, whatever the layout of both, and changes nothing else.  Missing: arrays that share memory
(`C83_overlap_counterexample`), integers above 2^53 and complex numbers (`C83_values_counterexample`; but see
`C83_copyto_same`), casts that NumPy refuses (`C83_casting_counterexample`). -/
theorem C83_copyto_partial {a b : DType} (ha : a.Real) (hb : b.Numeric) (mem : Int → Elem) (dst src : View) (hw : dst.WF) (gw : src.WF)
    (hitem : dst.item = DType.itemsize b) (gitem : src.item = DType.itemsize a) (hpos : 0 < dst.item) (gpos : 0 < src.item)
    (hs : Separate dst) (hno : NoOverlap dst src) (hfit : BroadcastsTo src.shape dst.shape)
    (hx : ∀ i, InShape src.shape i → (mem (src.addr i)).OfType a)
    (hint : ∀ i n, InShape src.shape i → mem (src.addr i) = .int n →
      n.natAbs ≤ 2 ^ 53 ∧ ∀ lo hi, b.intRange = some (lo, hi) → lo ≤ n ∧ n ≤ hi) :
    ∃ new, copyto a b false mem dst src none = .done new ∧
      CopiedTo b mem new (cellsOf dst) ((cellsOf src).broadcast dst.shape) fun _ => True := by
  obtain ⟨s, e1, sw, hsh, sit, hsa⟩ := fitTo_spec gw hfit
  unfold copyto
  rw [e1, if_neg (by simp)]
  dsimp only
  rw [sizeOf_eq]
  by_cases h0 : size dst.shape = 0
  · rw [if_pos h0]
    have hnone : ∀ i, ¬InShape dst.shape i := fun i hi => by have := rank_lt hi; omega
    exact ⟨mem, rfl, fun i hi _ => absurd hi (hnone i), fun _ _ => rfl⟩
  · rw [if_neg h0]
    split
    · next hcond =>
      obtain ⟨rfl, hc, sc⟩ := hcond
      obtain ⟨new, n1, n2, n3⟩ := copyBlock_spec mem hw sw hc sc hsh (by rw [sit, gitem, hitem]) hpos (by omega) (by
        intro i j hi hj
        obtain ⟨q1, k, hk, q2⟩ := hsa j hj
        rw [q1, q2, sit]
        exact hno i k hi hk)
      refine ⟨new, n1, fun i hi _ => ?_, fun p hp => n3 p fun i hi => hp i hi trivial⟩
      obtain ⟨q1, k, hk, q2⟩ := hsa i hi
      show Converts a _ (new (dst.addr i))
      rw [n2 i hi, q1, q2]
      exact converts_self (hx k hk)
    · obtain ⟨h1, h2⟩ := copyLoop_spec hb mem hw sw hsh hs (by
        intro i j hi hj
        obtain ⟨q1, k, hk, q2⟩ := hsa j hj
        rw [q1, q2]
        exact ne_of_noOverlap hno hpos gpos hi hk)
      refine ⟨_, rfl, fun i hi _ => ?_, fun p hp => h2 p fun i hi => hp i hi trivial⟩
      obtain ⟨q1, k, hk, q2⟩ := hsa i hi
      have e := h1 i hi
      show Converts b _ (List.foldl _ mem _ (dst.addr i))
      rw [e, q1, q2]
      exact throughF64_converts ha hb (hx k hk) fun n hn => hint k n hk hn

/-- A destination of every second element and a source of one float. -/
example : ∃ new, copyto .f64 .i32 false (fun p => if p = 100 then .flt (.num (-7 / 2)) else .int p) ⟨0, [2], [8], 4, false, false⟩
    ⟨100, [1], [8], 8, true, true⟩ none = .done new ∧ [0, 4, 8].map new = [.int (-3), .int 4, .int (-3)] :=
  ⟨_, rfl, by decide +kernel⟩

/-- C83: with a mask only the elements where the mask is true are copied. -/
theorem C83_copyto_where_partial {a b c : DType} (ha : a.Real) (hb : b.Numeric) (hc : c.Real) (mem : Int → Elem) (dst src mask : View)
    (hw : dst.WF) (gw : src.WF) (mw : mask.WF) (hpos : 0 < dst.item) (gpos : 0 < src.item) (mpos : 0 < mask.item)
    (hs : Separate dst) (hno : NoOverlap dst src) (hnm : NoOverlap dst mask)
    (hfit : BroadcastsTo src.shape dst.shape) (mfit : BroadcastsTo mask.shape dst.shape)
    (hx : ∀ i, InShape src.shape i → (mem (src.addr i)).OfType a) (hm : ∀ i, InShape mask.shape i → (mem (mask.addr i)).OfType c)
    (hint : ∀ i n, InShape src.shape i → mem (src.addr i) = .int n →
      n.natAbs ≤ 2 ^ 53 ∧ ∀ lo hi, b.intRange = some (lo, hi) → lo ≤ n ∧ n ≤ hi) :
    ∃ new, copyto a b false mem dst src (some mask) = .done new ∧
      CopiedTo b mem new (cellsOf dst) ((cellsOf src).broadcast dst.shape)
        fun i => (mem (((cellsOf mask).broadcast dst.shape).get i)).Truthy := by
  obtain ⟨s, e1, sw, hsh, sit, hsa⟩ := fitTo_spec gw hfit
  obtain ⟨w, e2, ww, wsh, wit, hwa⟩ := fitTo_spec mw mfit
  unfold copyto
  rw [e1, if_neg (by simp)]
  dsimp only
  rw [sizeOf_eq, e2]
  dsimp only
  by_cases h0 : size dst.shape = 0
  · rw [if_pos h0]
    have hnone : ∀ i, ¬InShape dst.shape i := fun i hi => by have := rank_lt hi; omega
    exact ⟨mem, rfl, fun i hi _ => absurd hi (hnone i), fun _ _ => rfl⟩
  · rw [if_neg h0]
    obtain ⟨h1, h2⟩ := maskedLoop_spec hb mem hw sw ww hsh wsh hs (by
        intro i j hi hj
        obtain ⟨q1, k, hk, q2⟩ := hsa j hj
        rw [q1, q2]
        exact ne_of_noOverlap hno hpos gpos hi hk) (by
        intro i j hi hj
        obtain ⟨q1, k, hk, q2⟩ := hwa j hj
        rw [q1, q2]
        exact ne_of_noOverlap hnm hpos mpos hi hk)
    have htr : ∀ i, InShape dst.shape i →
        (fltEq (readOrZero (mem (w.addr i))) (.num 0) = false ↔ (mem (((cellsOf mask).broadcast dst.shape).get i)).Truthy) := by
      intro i hi
      obtain ⟨q1, k, hk, q2⟩ := hwa i hi
      rw [q1, q2]
      exact truthy_iff hc (hm k hk)
    refine ⟨_, rfl, fun i hi hsel => ?_, fun p hp => h2 p fun i hi ht => hp i hi ((htr i hi).1 ht)⟩
    obtain ⟨q1, k, hk, q2⟩ := hsa i hi
    have e := h1 i hi ((htr i hi).2 hsel)
    show Converts b _ (List.foldl _ mem _ (dst.addr i))
    rw [e, q1, q2]
    exact throughF64_converts ha hb (hx k hk) fun n hn => hint k n hk hn

/-- A mask that is repeated along the rows. -/
example : ∃ new, copyto .f64 .f64 false (fun p => if p = 200 then .bool true else if p = 201 then .bool false else .flt (.num p))
    ⟨0, [2, 2], [16, 8], 8, true, false⟩ ⟨100, [2, 2], [8, 16], 8, false, true⟩ (some ⟨200, [2], [1], 1, true, true⟩) = .done new ∧
      [0, 8, 16, 24].map new = [.flt (.num 100), .flt (.num 8), .flt (.num 108), .flt (.num 24)] :=
  ⟨_, rfl, by decide +kernel⟩

/-- C83: between contiguous arrays of the same dtype, of any kind, the elements are copied exactly. -/
theorem C83_copyto_same (a : DType) (mem : Int → Elem) (dst src : View) (hw : dst.WF) (gw : src.WF)
    (hitem : dst.item = src.item) (hpos : 0 < dst.item) (hc : dst.cFlag = true) (gc : src.cFlag = true) (hsh : src.shape = dst.shape)
    (hno : NoOverlap dst src) :
    ∃ new, copyto a a false mem dst src none = .done new ∧ (∀ i, InShape dst.shape i → new (dst.addr i) = mem (src.addr i)) ∧
      ∀ p, Foreign dst p → new p = mem p := by
  unfold copyto fitTo
  rw [if_neg (by simp), if_neg (by simp [hsh])]
  dsimp only
  rw [sizeOf_eq]
  by_cases h0 : size dst.shape = 0
  · rw [if_pos h0]
    have hnone : ∀ i, ¬InShape dst.shape i := fun i hi => by have := rank_lt hi; omega
    exact ⟨mem, rfl, fun i hi => absurd hi (hnone i), fun _ _ => rfl⟩
  · rw [if_neg h0, if_pos ⟨rfl, hc, gc⟩]
    obtain ⟨new, n1, n2, n3⟩ := copyBlock_spec mem hw gw hc gc hsh hitem.symm hpos (by omega) (by
      intro i j hi hj
      exact hno i j hi (by rw [hsh]; exact hj))
    exact ⟨new, n1, n2, fun p hp => n3 p hp⟩

example : ∃ new, copyto .c128 .c128 false (fun p => .cpx (.num p) (.num 1)) (View.fresh [2] 16) ⟨32, [2], [16], 16, true, true⟩ none = .done new ∧
    [0, 16].map new = [.cpx (.num 32) (.num 1), .cpx (.num 48) (.num 1)] := ⟨_, rfl, by decide +kernel⟩

/-- C83: a source that does not broadcast to the shape of the destination is an error, and for a destination with
elements so is such a mask; nothing else is. -/
theorem C83_copyto_error (a b : DType) (mem : Int → Elem) (dst src : View) (mask : Option View) (gw : src.WF) (mw : ∀ w ∈ mask, w.WF) :
    copyto a b false mem dst src mask = .error ↔
      ¬BroadcastsTo src.shape dst.shape ∨ (size dst.shape ≠ 0 ∧ ∃ w ∈ mask, ¬BroadcastsTo w.shape dst.shape) := by
  rw [← fitTo_isSome gw]
  unfold copyto
  rw [if_neg (by simp)]
  cases e1 : fitTo src dst.shape with
  | none => simp
  | some s =>
    dsimp only
    rw [sizeOf_eq]
    by_cases h0 : size dst.shape = 0
    · rw [if_pos h0]; simp [h0]
    · rw [if_neg h0]
      cases mask with
      | none =>
        simp only [Option.isSome_some, not_true_eq_false, Option.mem_def, reduceCtorEq, false_and, exists_false, and_false, or_false, iff_false]
        split
        · unfold copyBlock; split <;> simp
        · simp
      | some w =>
        dsimp only
        have hk := fitTo_isSome (mw w rfl) (t := dst.shape)
        cases e2 : fitTo w dst.shape with
        | none => rw [e2] at hk; simp [h0, ← hk]
        | some w' => rw [e2] at hk; simp [h0, ← hk]

example : copyto .f64 .f64 false (fun p => .int p) (View.fresh [2] 8) ⟨100, [3], [8], 8, true, true⟩ none = .error := rfl

/-- C83 fails for arrays that share memory.  `copyto(a, a[::-1])` of `[1, 2, 3, 4]` must give `[4, 3, 2, 1]`; the code
gives `[4, 3, 3, 4]`.  `copyto(a[1:], a[:-1])` is undefined behaviour. -/
theorem C83_overlap_counterexample :
    (∃ new, copyto .f64 .f64 false (fun p => .flt (.num (p / 8 + 1 : Int))) (View.fresh [4] 8) ⟨24, [4], [-8], 8, false, false⟩ none = .done new ∧
      [0, 8, 16, 24].map new = [.flt (.num 4), .flt (.num 3), .flt (.num 3), .flt (.num 4)]) ∧
    copyto .f64 .f64 false (fun p => .flt (.num (p / 8 + 1 : Int))) ⟨8, [3], [8], 8, true, true⟩ ⟨0, [3], [8], 8, true, true⟩ none = .undefined :=
  ⟨⟨_, rfl, by decide +kernel⟩, rfl⟩

/-- C83 fails for values that do not pass through `float64`: the integer 2^53 + 1 arrives changed in every second
element of an array of the same dtype, and a complex number arrives as zero. -/
theorem C83_values_counterexample :
    (∃ new, copyto .i64 .i64 false (fun _ => .int (2 ^ 53 + 1)) ⟨0, [1], [16], 8, false, false⟩ ⟨32, [1], [8], 8, true, true⟩ none = .done new ∧
      new 0 = .int (2 ^ 53)) ∧
    (∃ new, copyto .c128 .c128 false (fun _ => .cpx (.num 1) (.num 2)) ⟨0, [2], [32], 16, false, false⟩ ⟨128, [2], [16], 16, true, true⟩ none
      = .done new ∧ [0, 32].map new = [.cpx (.num 0) (.num 0), .cpx (.num 0) (.num 0)]) :=
  ⟨⟨_, rfl, by decide +kernel⟩, ⟨_, rfl, by decide +kernel⟩⟩

/-- C83 fails for casts that the default `casting='same_kind'` must refuse: 7/2 is copied into an integer array. -/
theorem C83_casting_counterexample :
    ∃ new, copyto .f64 .i64 false (fun p => if p = 8 then .flt (.num (7 / 2)) else .int 0) (View.fresh [1] 8) ⟨8, [1], [8], 8, true, true⟩ none = .done new ∧
      new 0 = .int 3 :=
  ⟨_, rfl, by decide +kernel⟩

/-! ### Layout -/

/-- What a user sees of an array on the heap. -/
def seenAt (h : Heap Elem) (x : Handle) : Option (Nd Elem) := (h.mems[x.buf]?).map x.view.denote

/-- The buffers there were are as they were. -/
def Kept (h h' : Heap Elem) : Prop := h'.vars = h.vars ∧ ∀ k, k < h.mems.length → h'.mems[k]? = h.mems[k]?

/-- `r` is `x` converted to the dtype `b`, on a heap where nothing else has changed. -/
def Converted (b : DType) (h : Heap Elem) (x : Handle) (h' : Heap Elem) (r : Handle) : Prop :=
  Kept h h' ∧ ∃ old new, seenAt h x = some old ∧ seenAt h' r = some new ∧ new.shape = old.shape ∧
    ∀ i, InShape old.shape i → Converts b (old.get i) (new.get i)

theorem alloc_converted {a b : DType} (ha : a.Real ∨ a = b) (hb : b.Numeric) (h : Heap Elem) (buf : Nat) (v : View) {m : Int → Elem}
    (hm : h.mems[buf]? = some m) (hw : v.WF) (hal : AlignedAs a v) (hx : ∀ i, InShape v.shape i → (m (v.addr i)).OfType a)
    (hint : a ≠ b → ∀ i n, InShape v.shape i → m (v.addr i) = .int n →
      n.natAbs ≤ 2 ^ 53 ∧ ∀ lo hi, b.intRange = some (lo, hi) → lo ≤ n ∧ n ≤ hi) :
    Kept h (h.alloc (astype a b ⟨m, v⟩) (DType.itemsize b) (zeroElem b)).1 ∧
    (h.alloc (astype a b ⟨m, v⟩) (DType.itemsize b) (zeroElem b)).1.mems[h.mems.length]? = some ((astype a b ⟨m, v⟩).mem (DType.itemsize b) (zeroElem b)) ∧
    (astype a b ⟨m, v⟩).shape = v.shape ∧
    ∀ i, InShape v.shape i → Converts b (m (v.addr i))
      ((astype a b ⟨m, v⟩).mem (DType.itemsize b) (zeroElem b) ((View.fresh v.shape (DType.itemsize b)).addr i)) := by
  obtain ⟨h1, h2⟩ := C70_astype_partial ha hb ⟨m, v⟩ hw (fun _ => hal) hx hint
  refine ⟨⟨rfl, fun k hk => by simp [Heap.alloc, List.getElem?_append_left hk]⟩, by simp [Heap.alloc], h1, fun i hi => ?_⟩
  obtain ⟨y, hy, hc⟩ := h2 i hi
  have hpos : 0 < DType.itemsize b := by cases b <;> first | exact hb.elim | decide
  have : (astype a b ⟨m, v⟩).mem (DType.itemsize b) (zeroElem b) ((View.fresh v.shape (DType.itemsize b)).addr i) = y := by
    unfold Arr.at? at hy
    have h1 : (astype a b ⟨m, v⟩).shape = v.shape := h1
    rw [h1] at hy
    unfold Arr.mem
    show List.getD _ ((0 + byteOffset i (cStrides v.shape (DType.itemsize b))).toNat / _) _ = _
    rw [byteOffset_cStrides _ _ _ hi.length_eq, zero_add, Int.toNat_natCast, Nat.mul_div_cancel_left _ hpos, List.getD, hy]
    rfl
  rw [this]
  exact hc

/-- C83: `ascontiguousarray` gives the same elements, converted to the dtype asked for, in row-major order.  An array
that is already laid out like this and has the dtype is returned itself.  Missing: 0-d arrays
(`C83_layout_counterexample`) and what C70 misses. -/
theorem C83_ascontiguous_partial {a b : DType} (ha : a.Real ∨ a = b) (hb : b.Numeric) (h : Heap Elem) (x : Handle) {m : Int → Elem}
    (hm : h.mems[x.buf]? = some m) (hw : x.view.WF) (hal : AlignedAs a x.view)
    (hx : ∀ i, InShape x.view.shape i → (m (x.view.addr i)).OfType a)
    (hint : a ≠ b → ∀ i n, InShape x.view.shape i → m (x.view.addr i) = .int n →
      n.natAbs ≤ 2 ^ 53 ∧ ∀ lo hi, b.intRange = some (lo, hi) → lo ≤ n ∧ n ≤ hi) :
    ∃ h' r, ascontiguousarray a b h x = some (h', r) ∧ Converted b h x h' r ∧ LaidOutC (cellsOf r.view) r.view.item ∧
      r.view.cFlag = true ∧ (x.view.cFlag = true → a = b → r = x) := by
  unfold ascontiguousarray
  rw [hm, Option.bind_eq_bind, Option.bind_some]
  by_cases hc : x.view.cFlag = true ∧ a = b
  · rw [if_pos hc]
    refine ⟨h, x, rfl, ⟨⟨rfl, fun _ _ => rfl⟩, _, _, by rw [seenAt, hm]; rfl, by rw [seenAt, hm]; rfl, rfl, fun i hi => ?_⟩,
      ⟨x.view.offset, fun i hi => ?_⟩, hc.1, fun _ _ => rfl⟩
    · rw [← hc.2]
      exact converts_self (hx i hi)
    · show x.view.offset + byteOffset i x.view.strides = _
      rw [C03_c_flag_sound _ _ _ hw.len (hw.c hc.1) i hi]
      rfl
  · rw [if_neg hc]
    obtain ⟨k1, k2, k3, k4⟩ := alloc_converted ha hb h x.buf x.view hm hw hal hx hint
    refine ⟨_, _, rfl, ⟨k1, _, _, by rw [seenAt, hm]; rfl, by
        show Option.map _ ((h.alloc (astype a b ⟨m, x.view⟩) (DType.itemsize b) (zeroElem b)).1.mems[h.mems.length]?) = _
        rw [k2]; rfl, k3, fun i hi => ?_⟩, ⟨0, fun i hi => ?_⟩, rfl, fun h1 h2 => absurd ⟨h1, h2⟩ hc⟩
    · have := k4 i hi
      show Converts b _ ((astype a b ⟨m, x.view⟩).mem _ _ ((View.fresh (astype a b ⟨m, x.view⟩).shape _).addr i))
      rw [k3]
      exact this
    · show 0 + byteOffset i (cStrides _ _) = _
      rw [byteOffset_cStrides (DType.itemsize b) (astype a b ⟨m, x.view⟩).shape i (InShape.length_eq hi)]
      rfl

/-- A transposed matrix becomes contiguous. -/
example : ∃ h' r, ascontiguousarray .f64 .f64 ⟨[fun p => .flt (.num p)], []⟩ ⟨0, (View.fresh [2, 2] 8).transpose⟩ = some (h', r) ∧
    r.buf = 1 ∧ ((h'.mems[1]?).map fun m => [0, 8, 16, 24].map m) = some [.flt (.num 0), .flt (.num 16), .flt (.num 8), .flt (.num 24)] :=
  ⟨_, _, rfl, rfl, by decide +kernel⟩

/-- C83: `asfortranarray` gives the same elements, converted to the dtype asked for, in column-major order. -/
theorem C83_asfortran_partial {a b : DType} (ha : a.Real ∨ a = b) (hb : b.Numeric) (h : Heap Elem) (x : Handle) {m : Int → Elem}
    (hm : h.mems[x.buf]? = some m) (hw : x.view.WF) (hal : AlignedAs a x.view)
    (hx : ∀ i, InShape x.view.shape i → (m (x.view.addr i)).OfType a)
    (hint : a ≠ b → ∀ i n, InShape x.view.shape i → m (x.view.addr i) = .int n →
      n.natAbs ≤ 2 ^ 53 ∧ ∀ lo hi, b.intRange = some (lo, hi) → lo ≤ n ∧ n ≤ hi) :
    ∃ h' r, asfortranarray a b h x = some (h', r) ∧ Converted b h x h' r ∧ LaidOutF (cellsOf r.view) r.view.item ∧ r.view.fFlag = true := by
  unfold asfortranarray
  rw [hm, Option.bind_eq_bind, Option.bind_some]
  have tw : x.view.transpose.WF := View.WF.viewWith (by simp [hw.len])
  have taddr : ∀ i, InShape x.view.shape i → x.view.transpose.addr i.reverse = x.view.addr i := by
    intro i hi
    show x.view.offset + 0 + byteOffset i.reverse x.view.strides.reverse = x.view.offset + byteOffset i x.view.strides
    rw [byteOffset_reverse (by rw [hw.len]; exact hi.length_eq), add_zero]
  have trev : ∀ i, InShape x.view.transpose.shape i → InShape x.view.shape i.reverse ∧ x.view.transpose.addr i = x.view.addr i.reverse := by
    intro i hi
    have h1 : InShape x.view.shape i.reverse := inShape_reverse.1 hi
    refine ⟨h1, ?_⟩
    have := taddr i.reverse h1
    rw [List.reverse_reverse] at this
    exact this
  obtain ⟨k1, k2, k3, k4⟩ := alloc_converted ha hb h x.buf x.view.transpose hm tw
    ⟨hal.1, fun s hs => hal.2 s (by simpa [View.transpose, View.viewWith] using hs)⟩
    (fun i hi => by rw [(trev i hi).2]; exact hx _ (trev i hi).1)
    (fun hab i n hi hn => hint hab _ n (trev i hi).1 (by rw [← (trev i hi).2]; exact hn))
  have hshape : (astype a b ⟨m, x.view.transpose⟩).shape.reverse = x.view.shape := by
    rw [k3]; exact List.reverse_reverse _
  have hst : (cStrides x.view.transpose.shape (DType.itemsize b)).reverse = fStridesLoop x.view.shape (DType.itemsize b) :=
    cStrides_reverse x.view.shape (DType.itemsize b)
  refine ⟨_, _, rfl, ⟨k1, _, _, by rw [seenAt, hm]; rfl, by
      show Option.map _ ((h.alloc (astype a b ⟨m, x.view.transpose⟩) (DType.itemsize b) (zeroElem b)).1.mems[h.mems.length]?) = _
      rw [k2]; rfl, hshape, fun i hi => ?_⟩, ⟨0, fun i hi => ?_⟩, ?_⟩
  · have hi : InShape x.view.shape i := hi
    have hr : InShape x.view.transpose.shape i.reverse := inShape_reverse.2 (by rw [List.reverse_reverse]; exact hi)
    have := k4 i.reverse hr
    rw [taddr i hi] at this
    show Converts b (m (x.view.addr i)) ((astype a b ⟨m, x.view.transpose⟩).mem _ _
      (0 + 0 + byteOffset i (cStrides (astype a b ⟨m, x.view.transpose⟩).shape _).reverse))
    rw [k3]
    have e : (View.fresh x.view.transpose.shape (DType.itemsize b)).addr i.reverse
        = 0 + 0 + byteOffset i (cStrides x.view.transpose.shape (DType.itemsize b)).reverse := by
      show 0 + byteOffset i.reverse (cStrides x.view.transpose.shape (DType.itemsize b)) = _
      have e2 := byteOffset_reverse (a := i.reverse) (sa := cStrides x.view.transpose.shape (DType.itemsize b)) (by
        rw [hr.length_eq]
        exact (View.WF.fresh x.view.transpose.shape (DType.itemsize b)).len.symm)
      rw [List.reverse_reverse] at e2
      rw [e2]
      ring
    rw [← e]
    exact this
  · have hi : InShape (astype a b ⟨m, x.view.transpose⟩).shape.reverse i := hi
    rw [hshape] at hi
    show 0 + 0 + byteOffset i (cStrides (astype a b ⟨m, x.view.transpose⟩).shape (DType.itemsize b)).reverse
      = 0 + ((DType.itemsize b * rankF (astype a b ⟨m, x.view.transpose⟩).shape.reverse i : Nat) : Int)
    rw [hshape, k3, hst, byteOffset_fStridesLoop _ _ _ hi.length_eq]
    push_cast
    ring
  · show isFContiguous (astype a b ⟨m, x.view.transpose⟩).shape.reverse
      (cStrides (astype a b ⟨m, x.view.transpose⟩).shape (DType.itemsize b)).reverse (DType.itemsize b) = true
    rw [hshape, k3, hst]
    exact isFAux_fStrides _ _

example : ∃ h' r, asfortranarray .f64 .f64 ⟨[fun p => .flt (.num p)], []⟩ ⟨0, View.fresh [2, 2] 8⟩ = some (h', r) ∧
    r.buf = 1 ∧ ((h'.mems[1]?).map fun m => [0, 8, 16, 24].map m) = some [.flt (.num 0), .flt (.num 16), .flt (.num 8), .flt (.num 24)] :=
  ⟨_, _, rfl, rfl, by decide +kernel⟩

/-- C83: `require` gives the same elements, converted to the dtype asked for; with 'C' in row-major order, with 'F' (and
no 'C') in column-major order.  Missing: the other requirements and 'C' together with 'F' (`C83_require_counterexample`). -/
theorem C83_require_partial {a b : DType} (ha : a.Real ∨ a = b) (hb : b.Numeric) (h : Heap Elem) (x : Handle) (reqs : List Char) {m : Int → Elem}
    (hm : h.mems[x.buf]? = some m) (hw : x.view.WF) (hal : AlignedAs a x.view)
    (hx : ∀ i, InShape x.view.shape i → (m (x.view.addr i)).OfType a)
    (hint : a ≠ b → ∀ i n, InShape x.view.shape i → m (x.view.addr i) = .int n →
      n.natAbs ≤ 2 ^ 53 ∧ ∀ lo hi, b.intRange = some (lo, hi) → lo ≤ n ∧ n ≤ hi) :
    ∃ h' r, require a b h x reqs = some (h', r) ∧ Converted b h x h' r ∧
      ('C' ∈ reqs → 'F' ∉ reqs → LaidOutC (cellsOf r.view) r.view.item) ∧
      ('F' ∈ reqs → 'C' ∉ reqs → LaidOutF (cellsOf r.view) r.view.item) := by
  unfold require
  rw [hm, Option.bind_eq_bind, Option.bind_some]
  by_cases hs : satisfies a b x.view reqs = true
  · rw [if_pos hs]
    have hab : a = b := by
      unfold satisfies at hs
      split at hs
      · simp at hs; exact hs.2
      · split at hs
        · simp at hs; exact hs.2
        · simpa using hs
    refine ⟨h, x, rfl, ⟨⟨rfl, fun _ _ => rfl⟩, _, _, by rw [seenAt, hm]; rfl, by rw [seenAt, hm]; rfl, rfl, fun i hi => ?_⟩,
      fun hC _ => ⟨x.view.offset, fun i hi => ?_⟩, fun hF hC => ⟨x.view.offset, fun i hi => ?_⟩⟩
    · rw [← hab]
      exact converts_self (hx i hi)
    · unfold satisfies at hs
      rw [if_pos hC] at hs
      simp at hs
      show x.view.offset + byteOffset i x.view.strides = _
      rw [C03_c_flag_sound _ _ _ hw.len (hw.c hs.1) i hi]
      rfl
    · unfold satisfies at hs
      rw [if_neg hC, if_pos hF] at hs
      simp at hs
      show x.view.offset + byteOffset i x.view.strides = _
      rw [C03_f_flag_sound _ _ _ hw.len (hw.f hs.1) i hi]
      rfl
  · rw [if_neg hs]
    by_cases hF : 'F' ∈ reqs
    · rw [if_pos hF]
      obtain ⟨h', r, e, h1, h2, _⟩ := C83_asfortran_partial ha hb h x hm hw hal hx hint
      exact ⟨h', r, e, h1, fun _ hn => absurd hF hn, fun _ _ => h2⟩
    · rw [if_neg hF]
      obtain ⟨k1, k2, k3, k4⟩ := alloc_converted ha hb h x.buf x.view hm hw hal hx hint
      refine ⟨_, _, rfl, ⟨k1, _, _, by rw [seenAt, hm]; rfl, by
          show Option.map _ ((h.alloc (astype a b ⟨m, x.view⟩) (DType.itemsize b) (zeroElem b)).1.mems[h.mems.length]?) = _
          rw [k2]; rfl, k3, fun i hi => ?_⟩, fun _ _ => ⟨0, fun i hi => ?_⟩, fun hf => absurd hf hF⟩
      · have := k4 i hi
        show Converts b _ ((astype a b ⟨m, x.view⟩).mem _ _ ((View.fresh (astype a b ⟨m, x.view⟩).shape _).addr i))
        rw [k3]
        exact this
      · show 0 + byteOffset i (cStrides _ _) = _
        rw [byteOffset_cStrides (DType.itemsize b) (astype a b ⟨m, x.view⟩).shape i (InShape.length_eq hi)]
        rfl

example : ∃ h' r, require .f64 .f64 ⟨[fun p => .flt (.num p)], []⟩ ⟨0, View.fresh [2, 2] 8⟩ ['F'] = some (h', r) ∧ r.view.fFlag = true :=
  ⟨_, _, rfl, by decide +kernel⟩

/-- C83 fails for 0-d arrays, which `ascontiguousarray` must make 1-d; and `asfortranarray` copies an array that is
already laid out in column-major order, where NumPy returns it itself. -/
theorem C83_layout_counterexample :
    (∃ h' r, ascontiguousarray .f64 .f64 ⟨[fun p => .flt (.num p)], []⟩ ⟨0, View.fresh [] 8⟩ = some (h', r) ∧ r.view.shape = []) ∧
    (∃ h' r, asfortranarray .f64 .f64 ⟨[fun p => .flt (.num p)], []⟩ ⟨0, (View.fresh [2, 2] 8).transpose⟩ = some (h', r) ∧
      (View.fresh [2, 2] 8).transpose.fFlag = true ∧ r.buf = 1) :=
  ⟨⟨_, _, rfl, rfl⟩, ⟨_, _, rfl, by decide +kernel, rfl⟩⟩

/-- C83 fails for `require` with 'O' (own data): a view is returned itself and still shares the memory of its base.  And
with 'C' and 'F' together, which NumPy refuses, the result is not in row-major order. -/
theorem C83_require_counterexample :
    (∃ h' r, require .f64 .f64 ⟨[fun p => .flt (.num p)], []⟩ ⟨0, (View.fresh [2, 2] 8).transpose⟩ ['O'] = some (h', r) ∧ r.buf = 0) ∧
    (∃ h' r, require .f64 .f64 ⟨[fun p => .flt (.num p)], []⟩ ⟨0, (View.fresh [2, 2] 8).transpose⟩ ['C', 'F'] = some (h', r) ∧ r.view.cFlag = false) :=
  ⟨⟨_, _, rfl, rfl⟩, ⟨_, _, rfl, by decide +kernel⟩⟩

end Props
