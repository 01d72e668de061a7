import Verif.Lemmas.InBounds
import Mathlib.Tactic.LinearCombination
/-!
# Lemmas: basic indexing
-/

namespace Rumpy
open Spec

/-- The model's index item for a specification index item. -/
def ofIx : Ix → IndexItem
  | .newAxis => .newAxis
  | .int i => .int i
  | .slice a b c => .slice a b c

/-- The Python index item for a specification index item. -/
def pyOfIx : Ix → PyItem
  | .newAxis => .newAxis
  | .int i => .int i
  | .slice a b c => .slice a b c

/-- The slices for which `normalize_slice` follows Python: every slice with positive step;
with a negative step the axis must not be empty and a given start must lie on the axis. -/
def SliceOk (len : Nat) (a : Option Int) (c : Int) : Prop :=
  0 < c ∨ (c < 0 ∧ 0 < len ∧ ∀ i, a = some i → -(len : Int) ≤ i ∧ i < len)

theorem specLen_isSliceLen {start stop step : Int} (hs : step ≠ 0) :
    IsSliceLen start stop step
      (if step > 0 then ((stop - start + step - 1) / step).toNat
        else ((start - stop - step - 1) / (-step)).toNat) := by
  intro k
  by_cases hp : step > 0
  · simp only [hp, if_true]
    rw [Int.lt_toNat, ← Int.add_one_le_iff, Int.le_ediv_iff_mul_le hp]
    constructor <;> intro h <;> nlinarith
  · simp only [hp, if_false]
    have hn : 0 < -step := by omega
    rw [Int.lt_toNat, ← Int.add_one_le_iff, Int.le_ediv_iff_mul_le hn]
    constructor <;> intro h <;> nlinarith

theorem sliceLen_zero_of_le {start stop step : Int} {n : Nat} (h : IsSliceLen start stop step n)
    (hp : 0 < step) (hle : stop ≤ start) : n = 0 := by
  by_contra hn
  have := (h 0).1 (by omega)
  simp only [gt_iff_lt, hp, if_true] at this
  simp at this; omega

theorem sliceLen_zero_of_ge {start stop step : Int} {n : Nat} (h : IsSliceLen start stop step n)
    (hp : step < 0) (hle : start ≤ stop) : n = 0 := by
  by_contra hn
  have := (h 0).1 (by omega)
  rw [if_neg (by omega)] at this
  simp at this; omega

/-- `normalize_slice` and Python name the same positions. -/
theorem normalizeSlice_spec {len : Nat} {a b : Option Int} {c : Int} (h : SliceOk len a c) {n m : Nat}
    (hn : IsSliceLen (normalizeSlice a b c len).1 (normalizeSlice a b c len).2 c n)
    (hm : IsSliceLen (sliceStart len a c) (sliceStop len b c) c m) :
    n = m ∧ (0 < n → (normalizeSlice a b c len).1 = sliceStart len a c) ∧
      (0 ≤ (normalizeSlice a b c len).1) := by
  rcases h with hc | ⟨hc, hl, ha⟩
  · have e1 : (normalizeSlice a b c len).1 = sliceStart len a c := by
      unfold normalizeSlice sliceStart
      cases a <;> simp only [gt_iff_lt, hc, if_true, Option.getD_none, Option.getD_some]
      · simp
      · split <;> omega
    have h0 : 0 ≤ (normalizeSlice a b c len).1 := by
      unfold normalizeSlice
      dsimp only
      split <;> omega
    refine ⟨?_, fun _ => e1, h0⟩
    by_cases h2 : (normalizeSlice a b c len).2 = sliceStop len b c
    · rw [e1, h2] at hn
      exact hn.unique hm
    · have h3 : (normalizeSlice a b c len).2 = -1 ∧ sliceStop len b c = 0 := by
        revert h2
        unfold normalizeSlice sliceStop
        cases b <;> simp only [gt_iff_lt, hc, if_true, Option.getD_none, Option.getD_some]
        · intro h2; exfalso; apply h2; split <;> omega
        · intro h2
          split at h2
          · constructor
            · split <;> omega
            · split <;> omega
          · exfalso; omega
      rw [sliceLen_zero_of_le hn hc (by omega), sliceLen_zero_of_le hm hc (by omega)]
  · have hc' : ¬ c > 0 := by omega
    have e1 : (normalizeSlice a b c len).1 = sliceStart len a c := by
      unfold normalizeSlice sliceStart
      cases a with
      | none => simp only [hc', if_false, Option.getD_none]; split <;> omega
      | some i =>
        have := ha i rfl
        simp only [hc', if_false, Option.getD_some]
        split <;> omega
    have h0 : 0 ≤ (normalizeSlice a b c len).1 := by
      unfold normalizeSlice
      dsimp only
      split <;> omega
    refine ⟨?_, fun _ => e1, h0⟩
    by_cases h2 : (normalizeSlice a b c len).2 = sliceStop len b c
    · rw [e1, h2] at hn
      exact hn.unique hm
    · have h3 : (normalizeSlice a b c len).2 ≥ len - 1 ∧ sliceStop len b c ≥ len - 1 := by
        revert h2
        unfold normalizeSlice sliceStop
        cases b <;> simp only [hc', if_false, Option.getD_none, Option.getD_some]
        · intro h2; exfalso; apply h2; split <;> omega
        · intro h2
          split at h2 <;> split <;> omega
      have h4 : sliceStart len a c ≤ len - 1 := by
        unfold sliceStart
        cases a <;> simp only [hc', if_false] <;> omega
      rw [sliceLen_zero_of_ge hn hc (by omega), sliceLen_zero_of_ge hm hc (by omega)]

/-- The items of a basic index for which the code is right. -/
def ItemsOk : List Ix → List Nat → Prop
  | [], _ => True
  | .newAxis :: r, s => ItemsOk r s
  | .int _ :: r, _ :: s => ItemsOk r s
  | .slice a _ c :: r, n :: s => SliceOk n a c ∧ ItemsOk r s
  | _ :: _, [] => True

theorem sliceLen_one (k : Int) : View.sliceLen k (k + 1) 1 = 1 := by
  have h := sliceLen_spec (start := k) (stop := k + 1) (step := 1) (by decide)
  refine h.unique fun j => ?_
  simp only [gt_iff_lt, Int.zero_lt_one, if_true]
  omega

theorem set_mid {β : Type u} (pre : List β) (x y : β) (s : List β) {k : Nat} (h : pre.length = k) :
    (pre ++ x :: s).set k y = (pre ++ [y]) ++ s := by
  subst h; simp

theorem insertIdx_mid {β : Type u} : ∀ (pre : List β) (y : β) (s : List β) {k : Nat}, pre.length = k →
    (pre ++ s).insertIdx k y = (pre ++ [y]) ++ s
  | [], y, s, _, rfl => by simp
  | x :: pre, y, s, _, rfl => by simpa using insertIdx_mid pre y s rfl

theorem getItemLoop_spec : ∀ (items : List Ix) (v : View) (axis : Nat) (sq : List Nat)
    (pre s : List Nat) (pst st : List Int) (s' : List Nat) (f : List Nat → List Nat),
    v.WF → v.shape = pre ++ s → v.strides = pst ++ st → pre.length = axis → pst.length = axis →
    (∀ x ∈ st, 0 ≤ x) → ItemsOk items s → basicIndex items s = some (s', f) →
    ∃ w news st', getItemLoop (items.map ofIx) v axis sq = some (w, news ++ sq) ∧
      (let w' := news.foldl View.squeezeAxis w
       w'.WF ∧ w'.item = v.item ∧ w'.shape = pre ++ s' ∧ w'.strides = pst ++ st' ∧
       ∀ idx, InShape s' idx →
        InShape s (f idx) ∧ w'.offset + byteOffset idx st' = v.offset + byteOffset (f idx) st)
  | [], v, axis, sq, pre, s, pst, st, s', f, hw, hs, hst, _, _, _, _, h => by
    simp only [basicIndex, Option.some.injEq, Prod.mk.injEq] at h
    obtain ⟨rfl, rfl⟩ := h
    exact ⟨v, [], st, rfl, hw, rfl, hs, hst, fun idx hi => ⟨hi, rfl⟩⟩
  | .newAxis :: r, v, axis, sq, pre, s, pst, st, s', f, hw, hs, hst, hp, hps, hn, hok, h => by
    simp only [basicIndex, Option.bind_eq_bind, Option.bind_eq_some_iff, Option.some.injEq,
      Prod.mk.injEq] at h
    obtain ⟨⟨s1, f1⟩, h1, rfl, rfl⟩ := h
    have e1 : v.shape.insertIdx axis 1 = (pre ++ [1]) ++ s := by
      rw [hs, insertIdx_mid _ _ _ hp]
    have e2 : v.strides.insertIdx axis (v.item : Int) = (pst ++ [(v.item : Int)]) ++ st := by
      rw [hst, insertIdx_mid _ _ _ hps]
    have hl := hw.len
    rw [hs, hst] at hl
    simp only [List.length_append] at hl
    obtain ⟨w, news, st', g1, g2, g3, g4, g5, g6⟩ := getItemLoop_spec r
      (v.viewWith 0 (v.shape.insertIdx axis 1) (v.strides.insertIdx axis (v.item : Int)))
      (axis + 1) sq (pre ++ [1]) s (pst ++ [(v.item : Int)]) st s1 f1
      (View.WF.viewWith (by rw [e1, e2]; simp; omega)) e1 e2 (by simp [hp]) (by simp [hps]) hn hok h1
    refine ⟨w, news, (v.item : Int) :: st', ?_, g2, g3, ?_, ?_, ?_⟩
    · simp only [List.map_cons, ofIx, getItemLoop, View.expandDims]
      rw [if_neg (by rw [hs]; simp; omega)]
      simpa using g1
    · rw [g4]; simp
    · rw [g5]; simp
    · intro idx hi
      obtain ⟨i, t, rfl, hi1, ht⟩ := inShape_cons.1 hi
      have : i = 0 := by omega
      subst this
      have := g6 t ht
      simp only [View.viewWith, Int.add_zero] at this
      simp only [List.tail_cons, byteOffset]
      refine ⟨this.1, ?_⟩
      have h2 := this.2
      push_cast
      omega
  | .int i :: r, v, axis, sq, pre, [], pst, st, s', f, hw, hs, hst, hp, hps, hn, hok, h => by
    simp [basicIndex] at h
  | .int i :: r, v, axis, sq, pre, n :: s, pst, st, s', f, hw, hs, hst, hp, hps, hn, hok, h => by
    simp only [basicIndex] at h
    split at h
    · rename_i hin
      simp only [Option.bind_eq_bind, Option.bind_eq_some_iff, Option.some.injEq,
        Prod.mk.injEq] at h
      obtain ⟨⟨s1, f1⟩, h1, rfl, rfl⟩ := h
      have hl := hw.len
      rw [hs, hst] at hl
      simp only [List.length_append, List.length_cons] at hl
      obtain ⟨x, st, rfl⟩ : ∃ x st', st = x :: st' := by
        cases st with
        | nil => simp at hl; omega
        | cons x st => exact ⟨x, st, rfl⟩
      have hx : 0 ≤ x := hn x (by simp)
      have es : v.shape[axis]? = some n := by rw [hs]; simp [← hp]
      have et : v.strides[axis]? = some x := by rw [hst]; simp [← hps]
      set k := normalizeIndex i n with hk
      have hk0 : 0 ≤ k ∧ k < n := by rw [hk]; unfold normalizeIndex; split <;> omega
      have hke : (if i < 0 then i + (n : Int) else i) = k := by
        rw [hk]; unfold normalizeIndex; split <;> omega
      have e1 : v.shape.set axis (View.sliceLen k (k + 1) 1) = (pre ++ [1]) ++ s := by
        rw [sliceLen_one, hs, set_mid _ _ _ _ hp]
      have e2 : v.strides.set axis (x * 1) = (pst ++ [x * 1]) ++ st := by rw [hst, set_mid _ _ _ _ hps]
      obtain ⟨w, news, st', g1, g2, g3, g4, g5, g6⟩ := getItemLoop_spec r
        (v.viewWith (k * (x.natAbs : Int)) (v.shape.set axis (View.sliceLen k (k + 1) 1))
          (v.strides.set axis (x * 1)))
        (axis + 1) (axis :: sq) (pre ++ [1]) s (pst ++ [x * 1]) st s1 f1
        (View.WF.viewWith (by rw [e1, e2]; simp at hl ⊢; omega)) e1 e2 (by simp [hp]) (by simp [hps])
        (fun y hy => hn y (by simp [hy])) hok h1
      refine ⟨w, news ++ [axis], st', ?_, ?_⟩
      · simp only [List.map_cons, ofIx, getItemLoop, es, Option.bind_eq_bind, Option.bind_some,
          View.sliceAxis, et]
        rw [if_neg (by simp)]
        rw [Option.bind_some, List.append_assoc, List.singleton_append]
        exact g1
      · simp only [List.foldl_append, List.foldl_cons, List.foldl_nil]
        generalize List.foldl View.squeezeAxis w news = w' at g2 g3 g4 g5 g6
        have hone : w'.shape[axis]? = some 1 := by rw [g4]; simp [← hp]
        have he : w'.shape.eraseIdx axis = pre ++ s1 := by
          rw [g4, ← hp]; simp [List.eraseIdx_append_of_length_le]
        have he2 : w'.strides.eraseIdx axis = pst ++ st' := by
          rw [g5, ← hps]; simp [List.eraseIdx_append_of_length_le]
        simp only [View.squeezeAxis, hone, if_true]
        refine ⟨View.WF.viewWith ?_, g3, he, he2, ?_⟩
        · rw [he, he2]
          have := g2.len
          rw [g4, g5] at this
          simp at this ⊢; omega
        · intro idx hi
          obtain ⟨h2, h3⟩ := g6 idx hi
          simp only [View.viewWith] at h3 ⊢
          rw [hke]
          refine ⟨⟨by omega, h2⟩, ?_⟩
          simp only [byteOffset]
          rw [Int.toNat_of_nonneg hk0.1]
          have : (x.natAbs : Int) = x := by omega
          rw [this] at h3
          omega
    · simp at h
  | .slice a b c :: r, v, axis, sq, pre, [], pst, st, s', f, hw, hs, hst, hp, hps, hn, hok, h => by
    simp [basicIndex] at h
  | .slice a b c :: r, v, axis, sq, pre, n :: s, pst, st, s', f, hw, hs, hst, hp, hps, hn, hok, h => by
    simp only [basicIndex] at h
    split at h
    · simp at h
    · rename_i hc0
      simp only [Option.bind_eq_bind, Option.bind_eq_some_iff, Option.some.injEq,
        Prod.mk.injEq] at h
      obtain ⟨⟨s1, f1⟩, h1, rfl, rfl⟩ := h
      have hl := hw.len
      rw [hs, hst] at hl
      simp only [List.length_append, List.length_cons] at hl
      obtain ⟨x, st, rfl⟩ : ∃ x st', st = x :: st' := by
        cases st with
        | nil => simp at hl; omega
        | cons x st => exact ⟨x, st, rfl⟩
      have hx : 0 ≤ x := hn x (by simp)
      have es : v.shape[axis]? = some n := by rw [hs]; simp [← hp]
      have et : v.strides[axis]? = some x := by rw [hst]; simp [← hps]
      obtain ⟨hok1, hok2⟩ := hok
      have hlen := sliceLen_spec (start := (normalizeSlice a b c n).1)
        (stop := (normalizeSlice a b c n).2) hc0
      have hlen2 := specLen_isSliceLen (start := sliceStart n a c) (stop := sliceStop n b c) hc0
      obtain ⟨hnm, hstart, hs0⟩ := normalizeSlice_spec hok1 hlen hlen2
      set L := (if c > 0 then ((sliceStop n b c - sliceStart n a c + c - 1) / c).toNat
        else ((sliceStart n a c - sliceStop n b c - c - 1) / (-c)).toNat) with hL
      set ns := (normalizeSlice a b c n).1 with hns
      have e1 : v.shape.set axis (View.sliceLen ns (normalizeSlice a b c n).2 c) = (pre ++ [L]) ++ s := by
        rw [hnm, hs, set_mid _ _ _ _ hp]
      have e2 : v.strides.set axis (x * c) = (pst ++ [x * c]) ++ st := by rw [hst, set_mid _ _ _ _ hps]
      obtain ⟨w, news, st', g1, g2, g3, g4, g5, g6⟩ := getItemLoop_spec r
        (v.viewWith (ns * (x.natAbs : Int)) (v.shape.set axis (View.sliceLen ns (normalizeSlice a b c n).2 c))
          (v.strides.set axis (x * c)))
        (axis + 1) sq (pre ++ [L]) s (pst ++ [x * c]) st s1 f1
        (View.WF.viewWith (by rw [e1, e2]; simp at hl ⊢; omega)) e1 e2 (by simp [hp]) (by simp [hps])
        (fun y hy => hn y (by simp [hy])) hok2 h1
      refine ⟨w, news, x * c :: st', ?_, g2, g3, ?_, ?_, ?_⟩
      · simp only [List.map_cons, ofIx, getItemLoop, es, Option.bind_eq_bind, Option.bind_some,
          View.sliceAxis, et]
        rw [if_neg (by simp [hc0])]
        exact g1
      · rw [g4]; simp
      · rw [g5]; simp
      · intro idx hi
        obtain ⟨i, t, rfl, hi1, ht⟩ := inShape_cons.1 hi
        have hstart' := hstart (by omega)
        obtain ⟨h2, h3⟩ := g6 t ht
        have hpos := slice_positions hc0 hlen2 hi1
        simp only [View.viewWith] at h3
        simp only [List.tail_cons, List.headD_cons]
        refine ⟨⟨by omega, h2⟩, ?_⟩
        simp only [byteOffset]
        rw [Int.toNat_of_nonneg hpos.1, ← hstart']
        have : (x.natAbs : Int) = x := by omega
        rw [this] at h3
        linear_combination h3

theorem expandItems_ofIx (k : Nat) (items : List Ix) :
    expandItems k (items.map pyOfIx) = items.map ofIx := by
  induction items with
  | nil => rfl
  | cons x r ih => cases x <;> simp [pyOfIx, expandItems, ofIx, ih]

theorem expandItems_append (k : Nat) (a b : List PyItem) :
    expandItems k (a ++ b) = expandItems k a ++ expandItems k b := by
  induction a with
  | nil => rfl
  | cons x r ih => cases x <;> simp [expandItems, ih]

theorem countItems_ofIx (items : List Ix) (rest : List PyItem) : ∀ e n,
    countItems (items.map pyOfIx ++ rest) e n = countItems rest e (n + axesUsed items) := by
  induction items with
  | nil => intro e n; rfl
  | cons x r ih =>
    intro e n
    cases x <;> simp [pyOfIx, countItems, ih, axesUsed, Nat.add_assoc, Nat.add_comm]

theorem getItemLoop_length : ∀ (items : List Ix) (v : View) (axis : Nat) (sq : List Nat) (r : View × List Nat),
    axis ≤ v.shape.length → getItemLoop (items.map ofIx) v axis sq = some r →
    axis + axesUsed items ≤ v.shape.length
  | [], _, _, _, _, h, _ => by simpa [axesUsed] using h
  | .newAxis :: rs, v, axis, sq, r, hax, h => by
    simp only [List.map_cons, ofIx, getItemLoop, Option.bind_eq_bind, Option.bind_eq_some_iff] at h
    obtain ⟨v', h1, h2⟩ := h
    unfold View.expandDims at h1
    split at h1
    · simp at h1
    · simp only [Option.some.injEq] at h1
      have hl : v'.shape.length = v.shape.length + 1 := by
        subst h1; simp only [View.viewWith]; exact List.length_insertIdx_of_le_length hax 1
      have := getItemLoop_length rs v' (axis + 1) sq r (by omega) h2
      simp only [axesUsed]; omega
  | .int i :: rs, v, axis, sq, r, hax, h => by
    simp only [List.map_cons, ofIx, getItemLoop, Option.bind_eq_bind, Option.bind_eq_some_iff] at h
    obtain ⟨len, hlen, v', h1, h2⟩ := h
    have hlt := (List.getElem?_eq_some_iff.1 hlen).1
    have hl : v'.shape.length = v.shape.length := by
      unfold View.sliceAxis at h1
      split at h1
      · split at h1
        · simp at h1
        · simp only [Option.some.injEq] at h1; subst h1; simp [View.viewWith]
      · simp at h1
    have := getItemLoop_length rs v' (axis + 1) _ r (by omega) h2
    simp only [axesUsed]; omega
  | .slice a b c :: rs, v, axis, sq, r, hax, h => by
    simp only [List.map_cons, ofIx, getItemLoop, Option.bind_eq_bind, Option.bind_eq_some_iff] at h
    obtain ⟨len, hlen, v', h1, h2⟩ := h
    have hlt := (List.getElem?_eq_some_iff.1 hlen).1
    have hl : v'.shape.length = v.shape.length := by
      unfold View.sliceAxis at h1
      split at h1
      · split at h1
        · simp at h1
        · simp only [Option.some.injEq] at h1; subst h1; simp [View.viewWith]
      · simp at h1
    have := getItemLoop_length rs v' (axis + 1) _ r (by omega) h2
    simp only [axesUsed]; omega

end Rumpy
