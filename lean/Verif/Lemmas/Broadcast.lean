import Verif.Lemmas.View
/-!
# Lemmas about broadcasting, squeeze and expand_dims
-/

namespace Spec

/-- Shapes are determined by their axes counted from the right. -/
theorem dimR_ext {a b : List Nat} (hl : a.length = b.length)
    (h : ∀ k, k < a.length → dimR a k = dimR b k) : a = b := by
  apply List.ext_getElem hl
  intro i h1 h2
  have := h (a.length - 1 - i) (by omega)
  unfold dimR at this
  rw [if_pos (by omega), if_pos (by omega)] at this
  have e1 : a.length - 1 - (a.length - 1 - i) = i := by omega
  have e2 : b.length - 1 - (a.length - 1 - i) = i := by omega
  rw [e1, e2, List.getD_eq_getElem _ _ h1, List.getD_eq_getElem _ _ h2] at this
  exact this

theorem dimR_of_le {a : List Nat} {k : Nat} (h : a.length ≤ k) : dimR a k = 1 := by
  unfold dimR; rw [if_neg (by omega)]

theorem dimR_reverse (a : List Nat) (k : Nat) : dimR a.reverse k = a.getD k 1 := by
  unfold dimR
  by_cases h : k < a.length
  · simp only [List.length_reverse, h, if_true, List.getD]
    rw [List.getElem?_reverse (by omega)]
    congr 2; omega
  · simp [h, List.getD]

/-- The shape with given axes from the right. -/
theorem exists_shape (n : Nat) (f : Nat → Nat) : ∃ r : List Nat, r.length = n ∧ ∀ k, k < n → dimR r k = f k := by
  refine ⟨((List.range n).map f).reverse, by simp, fun k hk => ?_⟩
  rw [dimR_reverse]
  simp [List.getD, List.getElem?_range hk]

theorem isBroadcast_full {a b r : List Nat} (h : IsBroadcast a b r) (k : Nat) :
    DimBroadcast (dimR a k) (dimR b k) (dimR r k) := by
  by_cases hk : k < r.length
  · exact h.2 k hk
  · rw [dimR_of_le (by have := h.1; omega), dimR_of_le (by have := h.1; omega), dimR_of_le (by omega)]
    exact Or.inl ⟨rfl, rfl⟩

theorem isBroadcast_assoc {a b c r : List Nat} :
    (∃ x, IsBroadcast a b x ∧ IsBroadcast x c r) ↔ (∃ x, IsBroadcast b c x ∧ IsBroadcast a x r) := by
  constructor
  · rintro ⟨x, h1, h2⟩
    obtain ⟨y, hy, hf⟩ := exists_shape (max b.length c.length)
      (fun k => if dimR b k = 1 then dimR c k else dimR b k)
    have hf' : ∀ k, dimR y k = if dimR b k = 1 then dimR c k else dimR b k := by
      intro k
      by_cases hk : k < y.length
      · exact hf k (by omega)
      · rw [dimR_of_le (a := y) (by omega), dimR_of_le (a := b) (by omega), dimR_of_le (a := c) (by omega)]; rfl
    refine ⟨y, ⟨hy, fun k _ => ?_⟩, ⟨by have := h1.1; have := h2.1; omega, fun k _ => ?_⟩⟩
    · have e1 := isBroadcast_full h1 k
      have e2 := isBroadcast_full h2 k
      rw [hf']
      unfold DimBroadcast at *
      split <;> omega
    · have e1 := isBroadcast_full h1 k
      have e2 := isBroadcast_full h2 k
      rw [hf']
      unfold DimBroadcast at *
      split <;> omega
  · rintro ⟨x, h1, h2⟩
    obtain ⟨y, hy, hf⟩ := exists_shape (max a.length b.length)
      (fun k => if dimR a k = 1 then dimR b k else dimR a k)
    have hf' : ∀ k, dimR y k = if dimR a k = 1 then dimR b k else dimR a k := by
      intro k
      by_cases hk : k < y.length
      · exact hf k (by omega)
      · rw [dimR_of_le (a := y) (by omega), dimR_of_le (a := b) (by omega), dimR_of_le (a := a) (by omega)]; rfl
    refine ⟨y, ⟨hy, fun k _ => ?_⟩, ⟨by have := h1.1; have := h2.1; omega, fun k _ => ?_⟩⟩
    · have e1 := isBroadcast_full h1 k
      have e2 := isBroadcast_full h2 k
      rw [hf']
      unfold DimBroadcast at *
      split <;> omega
    · have e1 := isBroadcast_full h1 k
      have e2 := isBroadcast_full h2 k
      rw [hf']
      unfold DimBroadcast at *
      split <;> omega

end Spec

namespace Rumpy
open Spec

/-- The loop of `broadcast_shapes` on reversed shapes, pointwise. -/
theorem broadcastShapesRev_iff : ∀ {a b r : List Nat}, broadcastShapesRev a b = some r ↔
    r.length = max a.length b.length ∧
      ∀ k, k < r.length → DimBroadcast (a.getD k 1) (b.getD k 1) (r.getD k 1)
  | [], [], r => by
    simp only [broadcastShapesRev, Option.some.injEq, List.length_nil, Nat.max_self]
    constructor
    · rintro rfl; simp
    · rintro ⟨h, _⟩; exact (List.eq_nil_of_length_eq_zero h).symm
  | a :: as, [], r => by
    simp only [broadcastShapesRev, Option.map_eq_some_iff, @broadcastShapesRev_iff as []]
    constructor
    · rintro ⟨t, ⟨h1, h2⟩, rfl⟩
      refine ⟨by simp at h1 ⊢; omega, fun k hk => ?_⟩
      cases k with
      | zero =>
        simp only [List.getD_cons_zero, List.getD_nil, DimBroadcast]
        by_cases h : a = 1 <;> simp [h]
      | succ k => simpa using h2 k (by simpa using hk)
    · rintro ⟨h1, h2⟩
      cases r with
      | nil => simp at h1
      | cons x t =>
        refine ⟨t, ⟨by simp at h1 ⊢; omega, fun k hk => by simpa using h2 (k + 1) (by simpa using hk)⟩, ?_⟩
        have := h2 0 (by simp)
        simp only [List.getD_cons_zero, List.getD_nil, DimBroadcast] at this
        congr 1; split <;> omega
  | [], b :: bs, r => by
    rw [show broadcastShapesRev [] (b :: bs) = (broadcastShapesRev [] bs).map ((if 1 = b then 1 else b) :: ·) from rfl]
    simp only [Option.map_eq_some_iff, @broadcastShapesRev_iff [] bs]
    constructor
    · rintro ⟨t, ⟨h1, h2⟩, rfl⟩
      refine ⟨by simp at h1 ⊢; omega, fun k hk => ?_⟩
      cases k with
      | zero =>
        simp only [List.getD_cons_zero, List.getD_nil]
        refine Or.inr (Or.inl ⟨rfl, ?_⟩)
        split <;> omega
      | succ k => simpa using h2 k (by simpa using hk)
    · rintro ⟨h1, h2⟩
      cases r with
      | nil => simp at h1
      | cons x t =>
        refine ⟨t, ⟨by simp at h1 ⊢; omega, fun k hk => by simpa using h2 (k + 1) (by simpa using hk)⟩, ?_⟩
        have := h2 0 (by simp)
        simp only [List.getD_cons_zero, List.getD_nil, DimBroadcast] at this
        congr 1; split <;> omega
  | a :: as, b :: bs, r => by
    have ih := @broadcastShapesRev_iff as bs
    have main : ∀ c, DimBroadcast a b c → (∀ x, DimBroadcast a b x → x = c) →
        ((broadcastShapesRev as bs).map (c :: ·) = some r ↔
          r.length = max (a :: as).length (b :: bs).length ∧
          ∀ k, k < r.length → DimBroadcast ((a :: as).getD k 1) ((b :: bs).getD k 1) (r.getD k 1)) := by
      intro c hc huniq
      simp only [Option.map_eq_some_iff, ih]
      constructor
      · rintro ⟨t, ⟨h1, h2⟩, rfl⟩
        refine ⟨by simp at h1 ⊢; omega, fun k hk => ?_⟩
        cases k with
        | zero => simpa using hc
        | succ k => simpa using h2 k (by simpa using hk)
      · rintro ⟨h1, h2⟩
        cases r with
        | nil => simp at h1
        | cons x t =>
          refine ⟨t, ⟨by simp at h1 ⊢; omega, fun k hk => by simpa using h2 (k + 1) (by simpa using hk)⟩, ?_⟩
          have := h2 0 (by simp)
          simp only [List.getD_cons_zero] at this
          rw [huniq x this]
    simp only [broadcastShapesRev]
    split
    · rename_i h
      exact main a (Or.inl ⟨h, rfl⟩) (fun x hx => by unfold DimBroadcast at hx; omega)
    · rename_i h
      split
      · rename_i h'
        exact main b (Or.inr (Or.inl ⟨h', rfl⟩)) (fun x hx => by unfold DimBroadcast at hx; omega)
      · rename_i h'
        split
        · rename_i h''
          exact main a (Or.inr (Or.inr ⟨h'', rfl⟩)) (fun x hx => by unfold DimBroadcast at hx; omega)
        · rename_i h''
          constructor
          · intro hh; simp at hh
          · rintro ⟨h1, h2⟩
            exfalso
            have := h2 0 (by rw [h1]; simp)
            simp only [List.getD_cons_zero] at this
            unfold DimBroadcast at this; omega

theorem broadcastShapes_iff {a b r : List Nat} : broadcastShapes a b = some r ↔ IsBroadcast a b r := by
  unfold broadcastShapes IsBroadcast
  simp only [Option.map_eq_some_iff, broadcastShapesRev_iff]
  have ha : ∀ k, dimR a k = a.reverse.getD k 1 := fun k => by
    rw [← dimR_reverse, List.reverse_reverse]
  have hb : ∀ k, dimR b k = b.reverse.getD k 1 := fun k => by
    rw [← dimR_reverse, List.reverse_reverse]
  constructor
  · rintro ⟨t, ⟨h1, h2⟩, rfl⟩
    refine ⟨by simpa using h1, fun k hk => ?_⟩
    rw [ha, hb, dimR_reverse]
    exact h2 k (by simpa using hk)
  · rintro ⟨h1, h2⟩
    refine ⟨r.reverse, ⟨by simpa using h1, fun k hk => ?_⟩, by simp⟩
    have := h2 k (by simpa using hk)
    have hr : r.reverse.getD k 1 = dimR r k := by rw [← dimR_reverse, List.reverse_reverse]
    rw [← ha, ← hb, hr]
    exact this

/-! ### broadcast_to -/

theorem broadcastLoop_some : ∀ {os : List Nat} {sts : List Int} {ns : List Nat},
    sts.length = os.length → ns.length = os.length →
    ((View.broadcastLoop os sts ns).isSome ↔ ∀ k, k < os.length → os.getD k 0 = 1 ∨ os.getD k 0 = ns.getD k 0)
  | [], _, _, _, _ => by simp [View.broadcastLoop]
  | o :: os, st :: sts, n :: ns, h1, h2 => by
    have ih := @broadcastLoop_some os sts ns (by simpa using h1) (by simpa using h2)
    have hsplit : (∀ k, k < (o :: os).length → (o :: os).getD k 0 = 1 ∨ (o :: os).getD k 0 = (n :: ns).getD k 0) ↔
        (o = 1 ∨ o = n) ∧ ∀ k, k < os.length → os.getD k 0 = 1 ∨ os.getD k 0 = ns.getD k 0 := by
      constructor
      · intro h
        exact ⟨by simpa using h 0 (by simp), fun k hk => by simpa using h (k + 1) (by simpa using hk)⟩
      · rintro ⟨h, h'⟩ k hk
        cases k with
        | zero => simpa using h
        | succ k => simpa using h' k (by simpa using hk)
    rw [hsplit, ← ih]
    simp only [View.broadcastLoop]
    split
    · rename_i h; simp [h]
    · rename_i h
      split
      · rename_i h'; simp [h']
      · rename_i h'; simp [h, h']

theorem broadcastLoop_length : ∀ {os : List Nat} {sts : List Int} {ns : List Nat} {r : List Int},
    View.broadcastLoop os sts ns = some r → r.length = os.length
  | [], _, _, r, h => by simp [View.broadcastLoop] at h; simp [← h]
  | o :: os, st :: sts, n :: ns, r, h => by
    simp only [View.broadcastLoop] at h
    split at h
    · obtain ⟨t, ht, rfl⟩ := Option.map_eq_some_iff.1 h
      simp [broadcastLoop_length ht]
    · split at h
      · obtain ⟨t, ht, rfl⟩ := Option.map_eq_some_iff.1 h
        simp [broadcastLoop_length ht]
      · simp at h
  | _ :: _, [], _, _, h => by simp [View.broadcastLoop] at h
  | _ :: _, _ :: _, [], _, h => by simp [View.broadcastLoop] at h

theorem broadcastLoop_offset : ∀ {os : List Nat} {sts : List Int} {ns : List Nat} {r : List Int} {idx : List Nat},
    View.broadcastLoop os sts ns = some r → InShape ns idx → sts.length = os.length →
    byteOffset idx r = byteOffset (List.zipWith (fun d i => if d = 1 then 0 else i) os idx) sts ∧
      InShape os (List.zipWith (fun d i => if d = 1 then 0 else i) os (idx.take os.length))
  | [], [], ns, r, idx, h, hi, _ => by
    simp only [View.broadcastLoop, Option.some.injEq] at h
    subst h
    cases idx <;> simp [byteOffset, InShape]
  | o :: os, st :: sts, n :: ns, r, idx, h, hi, hl => by
    obtain ⟨i, t, rfl, hin, ht⟩ := inShape_cons.1 hi
    simp only [View.broadcastLoop] at h
    split at h
    · rename_i hon
      obtain ⟨t', ht', rfl⟩ := Option.map_eq_some_iff.1 h
      obtain ⟨h1, h2⟩ := broadcastLoop_offset ht' ht (by simpa using hl)
      refine ⟨?_, ?_⟩
      · simp only [byteOffset, List.zipWith_cons_cons, h1]
        congr 2
        split
        · congr 1; omega
        · rfl
      · simp only [List.length_cons, List.take_succ_cons, List.zipWith_cons_cons, InShape]
        exact ⟨by split <;> omega, h2⟩
    · split at h
      · rename_i ho1
        obtain ⟨t', ht', rfl⟩ := Option.map_eq_some_iff.1 h
        obtain ⟨h1, h2⟩ := broadcastLoop_offset ht' ht (by simpa using hl)
        refine ⟨?_, ?_⟩
        · simp [byteOffset, List.zipWith_cons_cons, h1, ho1]
        · simp only [List.length_cons, List.take_succ_cons, List.zipWith_cons_cons, InShape]
          exact ⟨by split <;> omega, h2⟩
      · simp at h
  | _ :: _, _ :: _, [], _, _, h, _, _ => by simp [View.broadcastLoop] at h

theorem dimR_drop {s t : List Nat} (h : s.length ≤ t.length) {k : Nat} (hk : k < s.length) :
    dimR s (s.length - 1 - k) = s.getD k 0 ∧
      dimR t (s.length - 1 - k) = (t.drop (t.length - s.length)).getD k 0 := by
  unfold dimR
  rw [if_pos (by omega), if_pos (by omega)]
  have e1 : s.length - 1 - (s.length - 1 - k) = k := by omega
  have e2 : t.length - 1 - (s.length - 1 - k) = t.length - s.length + k := by omega
  rw [e1, e2]
  constructor
  · rw [List.getD_eq_getElem _ _ hk, List.getD_eq_getElem _ _ hk]
  · simp only [List.getD, List.getElem?_drop]
    rw [List.getElem?_eq_getElem (by omega)]; rfl

theorem broadcastTo_isSome {v : View} (hw : v.WF) {t : List Nat} :
    (v.broadcastTo t).isSome ↔ BroadcastsTo v.shape t := by
  unfold View.broadcastTo BroadcastsTo
  by_cases hl : t.length < v.shape.length
  · rw [if_pos hl]; simp; intro h; omega
  · rw [if_neg hl]
    have hlen : (t.drop (t.length - v.shape.length)).length = v.shape.length := by simp; omega
    have := broadcastLoop_some (os := v.shape) (sts := v.strides)
      (ns := t.drop (t.length - v.shape.length)) hw.len hlen
    refine Iff.trans (b := (View.broadcastLoop v.shape v.strides
      (t.drop (t.length - v.shape.length))).isSome = true) ?_ (this.trans ?_)
    · dsimp only
      split
      · rename_i h; simp [h]
      · rename_i h; simp [h]
    constructor
    · intro h
      refine ⟨by omega, fun k hk => ?_⟩
      have h1 := h (v.shape.length - 1 - k) (by omega)
      obtain ⟨e1, e2⟩ := dimR_drop (s := v.shape) (t := t) (by omega)
        (k := v.shape.length - 1 - k) (by omega)
      have e3 : v.shape.length - 1 - (v.shape.length - 1 - k) = k := by omega
      rw [e3] at e1 e2
      rw [e1, e2]; exact h1
    · rintro ⟨_, h⟩ k hk
      have h1 := h (v.shape.length - 1 - k) (by omega)
      obtain ⟨e1, e2⟩ := dimR_drop (s := v.shape) (t := t) (by omega) hk
      rw [← e1, ← e2]; exact h1

theorem inShape_drop : ∀ (k : Nat) {s idx : List Nat}, InShape s idx → InShape (s.drop k) (idx.drop k)
  | 0, _, _, h => h
  | k + 1, [], [], _ => by simp
  | k + 1, n :: s, i :: idx, h => by simpa using inShape_drop k h.2

theorem broadcastTo_addr {v v' : View} (hw : v.WF) {t : List Nat} (h : v.broadcastTo t = some v') :
    v'.WF ∧ v'.shape = t ∧
    (∀ idx, InShape t idx → v'.addr idx = v.addr (List.zipWith (fun d i => if d = 1 then 0 else i) v.shape
      (idx.drop (t.length - v.shape.length)))) ∧
    (∀ idx, InShape t idx → InShape v.shape (List.zipWith (fun d i => if d = 1 then 0 else i) v.shape
      (idx.drop (t.length - v.shape.length)))) := by
  unfold View.broadcastTo at h
  split at h
  · simp at h
  · rename_i hl
    simp only at h
    split at h
    · simp at h
    · rename_i st hst
      simp only [Option.some.injEq] at h
      subst h
      have hstl := broadcastLoop_length hst
      have hdl : (t.drop (t.length - v.shape.length)).length = v.shape.length := by simp; omega
      refine ⟨View.WF.viewWith (by simp [hstl]; omega), rfl, fun idx hi => ?_, fun idx hi => ?_⟩
      · obtain ⟨h1, _⟩ := broadcastLoop_offset hst (inShape_drop _ hi) hw.len
        simp only [View.addr, View.viewWith]
        have : byteOffset idx (List.replicate (t.length - v.shape.length) 0 ++ st)
            = byteOffset (idx.drop (t.length - v.shape.length)) st := by
          conv_lhs => rw [← List.take_append_drop (t.length - v.shape.length) idx]
          rw [byteOffset_append _ _ (by have := hi.length_eq; simp; omega)]
          have hz : ∀ (l : List Nat) (m : Nat), byteOffset l (List.replicate m 0) = 0 := by
            intro l
            induction l with
            | nil => intro m; cases m <;> rfl
            | cons a l ih => intro m; cases m with
              | zero => rfl
              | succ m => simp [List.replicate_succ, byteOffset, ih]
          rw [hz]; simp
        rw [this, h1]; ring
      · obtain ⟨_, h2⟩ := broadcastLoop_offset hst (inShape_drop _ hi) hw.len
        rw [List.take_of_length_le] at h2
        · exact h2
        · have := hi.length_eq; simp; omega

/-! ### expand_dims, squeeze -/

theorem byteOffset_insertIdx {item : Int} : ∀ {axis : Nat} {s idx : List Nat} {sts : List Int},
    InShape (s.insertIdx axis 1) idx → axis ≤ s.length → sts.length = s.length →
    byteOffset idx (sts.insertIdx axis item) = byteOffset (idx.eraseIdx axis) sts
  | 0, s, idx, sts, h, _, _ => by
    simp only [List.insertIdx_zero] at h ⊢
    obtain ⟨i, t, rfl, hi, _⟩ := inShape_cons.1 h
    have : i = 0 := by omega
    simp [byteOffset, this]
  | axis + 1, n :: s, idx, st :: sts, h, hl, hs => by
    simp only [List.insertIdx_succ_cons] at h ⊢
    obtain ⟨i, t, rfl, hi, ht⟩ := inShape_cons.1 h
    simp only [byteOffset, List.eraseIdx_cons_succ]
    rw [byteOffset_insertIdx ht (by simpa using hl) (by simpa using hs)]
  | _ + 1, [], _, _, _, h, _ => by simp at h

theorem byteOffset_insert_zero : ∀ {axis : Nat} {idx : List Nat} {sts : List Int},
    axis ≤ idx.length → idx.length + 1 = sts.length →
    byteOffset (idx.insertIdx axis 0) sts = byteOffset idx (sts.eraseIdx axis)
  | 0, idx, st :: sts, _, _ => by simp [byteOffset]
  | axis + 1, i :: idx, st :: sts, h, hl => by
    simp only [List.insertIdx_succ_cons, byteOffset, List.eraseIdx_cons_succ]
    rw [byteOffset_insert_zero (by simpa using h) (by simpa using hl)]
  | _ + 1, [], _, h, _ => by simp at h
  | 0, _, [], _, h => by simp at h

theorem byteOffset_squeeze : ∀ {s idx : List Nat} {sts : List Int}, sts.length = s.length →
    InShape (s.filter (· ≠ 1)) idx →
    byteOffset idx (((s.zip sts).filter (fun p => p.1 ≠ 1)).map (·.2)) = byteOffset (unsqueeze s idx) sts
  | [], idx, [], _, h => by
    simp only [List.filter_nil, inShape_nil] at h
    subst h; simp [byteOffset, unsqueeze]
  | n :: s, idx, st :: sts, hl, h => by
    by_cases hn : n = 1
    · have h' : InShape (s.filter (· ≠ 1)) idx := by simpa [hn] using h
      have ih := byteOffset_squeeze (sts := sts) (by simpa using hl) h'
      simp [hn, unsqueeze, byteOffset] at ih ⊢
      exact ih
    · have h' : InShape (n :: s.filter (· ≠ 1)) idx := by simpa [hn] using h
      obtain ⟨i, t, rfl, hi, ht⟩ := inShape_cons.1 h'
      have ih := byteOffset_squeeze (sts := sts) (by simpa using hl) ht
      simp [hn, unsqueeze, byteOffset] at ih ⊢
      exact ih

end Rumpy
