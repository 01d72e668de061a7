import Verif.Model.Layout
import Verif.Lemmas.Nd
/-! Helper lemmas about strides, contiguity and iteration. -/

namespace Rumpy
open Spec

theorem sizeOf_eq (s : List Nat) : sizeOf s = size s := by
  have h : ∀ (s : List Nat) (a : Nat), s.foldl (· * ·) a = a * size s := by
    intro s
    induction s with
    | nil => intro a; simp [size]
    | cons n s ih => intro a; simp [ih, size, Nat.mul_assoc]
  simp [sizeOf, h]

theorem incrAux_spec : ∀ {s idx : List Nat}, InShape s idx →
    InShape s (incrAux idx s).1 ∧
    ((incrAux idx s).2 = true → rank s idx + 1 = size s ∧ rank s (incrAux idx s).1 = 0) ∧
    ((incrAux idx s).2 = false → rank s (incrAux idx s).1 = rank s idx + 1)
  | [], [], _ => by simp [incrAux, InShape, rank, size]
  | n :: s, i :: idx, h => by
    obtain ⟨h1, h2, h3⟩ := incrAux_spec h.2
    have hi := h.1
    rcases hr : incrAux idx s with ⟨idx', carry⟩
    rw [hr] at h1 h2 h3
    simp only at h1 h2 h3
    cases carry with
    | false =>
      simp only [incrAux, hr]
      refine ⟨⟨hi, h1⟩, by simp, ?_⟩
      intro _
      simp [rank, h3 rfl]; omega
    | true =>
      have h2 := h2 rfl
      simp only [incrAux, hr, if_true]
      by_cases hlt : i + 1 < n
      · simp only [hlt, if_true]
        refine ⟨⟨hlt, h1⟩, by simp, ?_⟩
        intro _
        simp only [rank, h2.2]
        rw [← h2.1]; ring
      · simp only [hlt, if_false]
        refine ⟨⟨by omega, h1⟩, ?_, by simp⟩
        intro _
        have : n = i + 1 := by omega
        subst this
        simp only [rank, size, h2.2]
        constructor
        · rw [← h2.1]; ring
        · simp

theorem incrementIndices_rank {s idx : List Nat} (h : InShape s idx)
    (hlt : rank s idx + 1 < size s) :
    InShape s (incrementIndices idx s) ∧
      rank s (incrementIndices idx s) = rank s idx + 1 := by
  obtain ⟨h1, h2, h3⟩ := incrAux_spec h
  refine ⟨h1, ?_⟩
  cases hc : (incrAux idx s).2 with
  | true => have := (h2 hc).1; omega
  | false => exact h3 hc

theorem odometer_spec {s : List Nat} : ∀ (k : Nat) (idx : List Nat), InShape s idx →
    rank s idx + k ≤ size s →
    (∀ j ∈ odometer s k idx, InShape s j) ∧
    (odometer s k idx).map (rank s) = List.range' (rank s idx) k
  | 0, _, _, _ => by simp [odometer]
  | k + 1, idx, h, hk => by
    by_cases hlast : k = 0
    · subst hlast
      simp [odometer, h]
    · obtain ⟨h1, h2⟩ := incrementIndices_rank h (by omega)
      have ih := odometer_spec k _ h1 (by omega)
      refine ⟨?_, ?_⟩
      · intro j hj
        simp only [odometer, List.mem_cons] at hj
        rcases hj with rfl | hj
        · exact h
        · exact ih.1 j hj
      · simp [odometer, ih.2, h2, List.range'_succ]

theorem odometer_eq (s : List Nat) :
    odometer s (size s) (List.replicate s.length 0) = indices s := by
  by_cases h : size s = 0
  · have : indices s = [] := by
      apply List.eq_nil_of_length_eq_zero; rw [length_indices, h]
    rw [h, this]; rfl
  · have h0 := inShape_replicate_zero (s := s) (by omega)
    have hr := rank_replicate_zero s
    have := odometer_spec (size s) _ h0 (by omega)
    apply eq_indices_of_rank this.1
    rw [this.2, hr, List.range_eq_range']

theorem advanceAux_spec : ∀ {s : List Nat} {sts : List Int} {cs : List Nat} (off : Int),
    sts.length = s.length → InShape s cs →
    advanceAux s sts
      (List.zipWith (fun (s : Nat) (st : Int) => if s > 0 then ((s : Int) - 1) * st else 0) s sts) cs off
      = ((incrAux cs s).1, off + byteOffset (incrAux cs s).1 sts - byteOffset cs sts, (incrAux cs s).2)
  | [], [], [], off, _, _ => by simp [advanceAux, incrAux, byteOffset]
  | n :: s, st :: sts, c :: cs, off, hl, h => by
    have ih := advanceAux_spec (s := s) (sts := sts) (cs := cs) off (by simpa using hl) h.2
    have hc := h.1
    simp only [List.zipWith_cons_cons, advanceAux, ih, incrAux]
    rcases hr : incrAux cs s with ⟨cs', carry⟩
    cases carry with
    | false =>
      simp only [Bool.false_eq_true, if_false, byteOffset, Prod.mk.injEq, true_and, and_true]
      ring
    | true =>
      simp only [if_true]
      by_cases hlt : c + 1 < n
      · simp only [hlt, if_true, byteOffset, Prod.mk.injEq, true_and, and_true]
        push_cast; ring
      · have hn : n = c + 1 := by omega
        subst hn
        simp only [hlt, if_false, byteOffset, Prod.mk.injEq, true_and, and_true]
        simp only [gt_iff_lt, Nat.succ_pos, if_true]
        push_cast; ring

theorem drain_spec {s : List Nat} {sts : List Int} {base : Int} (hl : sts.length = s.length) :
    ∀ (k : Nat) (cs : List Nat), InShape s cs → rank s cs + (k + 1) = size s →
    StridedIter.drain (k + 2)
      { shape := s, strides := sts,
        backstrides := List.zipWith (fun (s : Nat) (st : Int) => if s > 0 then ((s : Int) - 1) * st else 0) s sts,
        counters := cs, offset := base + byteOffset cs sts, remaining := k + 1 }
      = (odometer s (k + 1) cs).map fun idx => base + byteOffset idx sts
  | 0, cs, _, _ => by
    simp [StridedIter.drain, StridedIter.next, odometer]
  | k + 1, cs, h, hk => by
    obtain ⟨h1, h2⟩ := incrementIndices_rank h (by omega)
    have ih := drain_spec hl (base := base) k _ h1 (by omega)
    have hadv := advanceAux_spec (base + byteOffset cs sts) hl h
    rw [StridedIter.drain]
    simp only [StridedIter.next, StridedIter.advance, hadv]
    simp only [Nat.add_eq_zero_iff, Nat.succ_ne_zero, and_false, if_false, Nat.add_sub_cancel,
      gt_iff_lt, Nat.succ_pos, if_true, reduceCtorEq]
    rw [odometer, List.map_cons, ← ih]
    congr 2
    simp only [incrementIndices]
    congr 1
    ring

theorem toList_new {s : List Nat} {sts : List Int} (hl : sts.length = s.length) (base : Int) :
    (StridedIter.new s sts base).toList = (indices s).map fun idx => base + byteOffset idx sts := by
  rw [← odometer_eq]
  by_cases h : size s = 0
  · simp [StridedIter.toList, StridedIter.new, StridedIter.drain, StridedIter.next, sizeOf_eq, h, odometer]
  · obtain ⟨k, hk⟩ := Nat.exists_eq_succ_of_ne_zero h
    have h0 := inShape_replicate_zero (s := s) (by omega)
    have hr := rank_replicate_zero s
    have hb : ∀ (s : List Nat) (sts : List Int), byteOffset (List.replicate s.length 0) sts = 0 := by
      intro s
      induction s with
      | nil => intro sts; cases sts <;> simp [byteOffset]
      | cons n s ih => intro sts; cases sts <;> simp [byteOffset, List.replicate_succ, ih]
    have := drain_spec hl (base := base) k _ h0 (by omega)
    rw [hb] at this
    simp only [StridedIter.toList, StridedIter.new, sizeOf_eq, hk]
    rw [← this]
    simp

/-! ### Strides and contiguity -/

theorem cStridesAux_snd (s : List Nat) (item : Nat) : (cStridesAux item s).2 = (item * size s : Nat) := by
  induction s with
  | nil => simp [cStridesAux, size]
  | cons n s ih => simp [cStridesAux, size, ih]; ring

theorem cStrides_cons (n : Nat) (s : List Nat) (item : Nat) :
    cStrides (n :: s) item = ((item * size s : Nat) : Int) :: cStrides s item := by
  simp only [cStrides, cStridesAux, cStridesAux_snd]

theorem cStrides_length (s : List Nat) (item : Nat) : (cStrides s item).length = s.length := by
  induction s with
  | nil => rfl
  | cons n s ih => simp [cStrides_cons, ih]

theorem byteOffset_cStrides (item : Nat) : ∀ (s idx : List Nat), idx.length = s.length →
    byteOffset idx (cStrides s item) = ((item * rank s idx : Nat) : Int)
  | [], [], _ => by simp [byteOffset, rank]
  | n :: s, i :: idx, h => by
    have ih := byteOffset_cStrides item s idx (by simpa using h)
    rw [cStrides_cons]
    simp only [byteOffset, ih, rank]
    push_cast; ring

theorem fStridesLoop_length (s : List Nat) (k : Int) : (fStridesLoop s k).length = s.length := by
  induction s generalizing k with
  | nil => rfl
  | cons n s ih => simp [fStridesLoop, ih]

theorem byteOffset_fStridesLoop : ∀ (s idx : List Nat) (k : Int), idx.length = s.length →
    byteOffset idx (fStridesLoop s k) = k * (rankF s idx : Int)
  | [], [], _, _ => by simp [byteOffset, rankF]
  | n :: s, i :: idx, k, h => by
    have ih := byteOffset_fStridesLoop s idx (k * n) (by simpa using h)
    simp only [fStridesLoop, byteOffset, ih, rankF]
    push_cast; ring

/-- While the C loop runs, the expected stride is `itemsize * size` and the
strides of all axes of length other than 1 are the C strides. -/
theorem isCAux_run {item : Nat} : ∀ {s : List Nat} {sts : List Int} {e : Int},
    sts.length = s.length → isCAux item s sts = .run e →
    e = ((item * size s : Nat) : Int) ∧ 0 < size s ∧
      ∀ idx, InShape s idx → byteOffset idx sts = ((item * rank s idx : Nat) : Int)
  | [], [], e, _, h => by
    simp only [isCAux, Contig.run.injEq] at h
    refine ⟨by simp [size, ← h], by simp [size], ?_⟩
    intro idx hi
    simp at hi; subst hi; simp [byteOffset, rank]
  | n :: s, st :: sts, e, hl, h => by
    simp only [isCAux] at h
    rcases hr : isCAux item s sts with e' | b
    · rw [hr] at h
      obtain ⟨he, hs, hb⟩ := isCAux_run (by simpa using hl) hr
      simp only [contigStep] at h
      split at h
      · simp at h
      · split at h
        · simp at h
        · rename_i h0 h1
          simp only [Contig.run.injEq] at h
          refine ⟨?_, ?_, ?_⟩
          · rw [← h, he]; simp only [size]; push_cast; ring
          · simp only [size]; exact Nat.mul_pos (by omega) hs
          · intro idx hi
            obtain ⟨i, t, rfl, hin, ht⟩ := inShape_cons.1 hi
            simp only [byteOffset, hb t ht, rank]
            by_cases hn1 : n = 1
            · have : i = 0 := by omega
              subst this; simp
            · have : st = e' := by
                by_contra hne; exact h1 ⟨hn1, hne⟩
              rw [this, he]; push_cast; ring
    · rw [hr] at h; simp [contigStep] at h

theorem isCAux_done_true {item : Nat} : ∀ {s : List Nat} {sts : List Int},
    isCAux item s sts = .done true → size s = 0
  | [], _, h => by simp [isCAux] at h
  | _ :: _, [], h => by simp [isCAux] at h
  | n :: s, st :: sts, h => by
    simp only [isCAux] at h
    rcases hr : isCAux item s sts with e' | b
    · rw [hr] at h
      simp only [contigStep] at h
      split at h
      · rename_i h0; simp [size, h0]
      · split at h <;> simp at h
    · rw [hr] at h
      simp only [contigStep, Contig.done.injEq] at h
      subst h
      simp [size, isCAux_done_true hr]

theorem isC_sound {s : List Nat} {sts : List Int} {item : Nat} (hl : sts.length = s.length)
    (h : isCContiguous s sts item = true) {idx : List Nat} (hi : InShape s idx) :
    byteOffset idx sts = ((item * rank s idx : Nat) : Int) := by
  unfold isCContiguous at h
  rcases hr : isCAux item s sts with e | b
  · exact (isCAux_run hl hr).2.2 idx hi
  · rw [hr] at h
    simp only [Contig.result] at h
    subst h
    have := isCAux_done_true hr
    have := rank_lt hi
    omega

theorem isCAux_done_false {item : Nat} : ∀ {s : List Nat} {sts : List Int},
    sts.length = s.length → isCAux item s sts = .done false → 0 < size s →
    ∃ idx, InShape s idx ∧ byteOffset idx sts ≠ ((item * rank s idx : Nat) : Int)
  | [], [], _, h, _ => by simp [isCAux] at h
  | n :: s, st :: sts, hl, h, hp => by
    simp only [size] at hp
    have hn : 0 < n := Nat.pos_of_mul_pos_right hp
    have hs : 0 < size s := Nat.pos_of_mul_pos_left hp
    simp only [isCAux] at h
    rcases hr : isCAux item s sts with e' | b
    · rw [hr] at h
      obtain ⟨he, _, hb⟩ := isCAux_run (by simpa using hl) hr
      simp only [contigStep] at h
      split at h
      · simp at h
      · split at h
        · rename_i h1
          refine ⟨1 :: List.replicate s.length 0, ⟨by omega, inShape_replicate_zero hs⟩, ?_⟩
          have hz := hb _ (inShape_replicate_zero hs)
          simp only [byteOffset, hz, rank, rank_replicate_zero]
          intro hcon
          apply h1.2
          rw [he]
          push_cast at hcon ⊢
          linarith
        · simp at h
    · rw [hr] at h
      simp only [contigStep, Contig.done.injEq] at h
      subst h
      obtain ⟨idx, hi, hne⟩ := isCAux_done_false (by simpa using hl) hr hs
      refine ⟨0 :: idx, ⟨hn, hi⟩, ?_⟩
      simpa [byteOffset, rank] using hne

/-- Running form of the F loop. -/
theorem isFAux_done {s : List Nat} {sts : List Int} (b : Bool) :
    isFAux s sts (.done b) = .done b := by
  induction s generalizing sts with
  | nil => cases sts <;> rfl
  | cons n s ih => cases sts with
    | nil => rfl
    | cons st sts => simp [isFAux, contigStep, ih]

theorem isFAux_sound : ∀ {s : List Nat} {sts : List Int} {e : Int}, sts.length = s.length →
    (isFAux s sts (.run e)).result = true →
    ∀ idx, InShape s idx → byteOffset idx sts = e * (rankF s idx : Int)
  | [], [], e, _, _, idx, hi => by simp at hi; subst hi; simp [byteOffset, rankF]
  | n :: s, st :: sts, e, hl, h, idx, hi => by
    obtain ⟨i, t, rfl, hin, ht⟩ := inShape_cons.1 hi
    simp only [isFAux, contigStep] at h
    split at h
    · omega
    · split at h
      · rw [isFAux_done] at h; simp [Contig.result] at h
      · rename_i h0 h1
        have ih := isFAux_sound (by simpa using hl) h t ht
        simp only [byteOffset, ih, rankF]
        by_cases hn1 : n = 1
        · have : i = 0 := by omega
          subst this; subst hn1; simp
        · have : st = e := by
            by_contra hne; exact h1 ⟨hn1, hne⟩
          rw [this]; push_cast; ring

theorem rankF_replicate_zero : ∀ s : List Nat, rankF s (List.replicate s.length 0) = 0
  | [] => rfl
  | n :: s => by simp [rankF, List.replicate_succ, rankF_replicate_zero s]

theorem byteOffset_replicate_zero : ∀ (k : Nat) (sts : List Int),
    byteOffset (List.replicate k 0) sts = 0
  | 0, sts => by cases sts <;> simp [byteOffset]
  | k + 1, sts => by
    cases sts <;> simp [byteOffset, List.replicate_succ, byteOffset_replicate_zero k]

theorem isFAux_complete : ∀ {s : List Nat} {sts : List Int} {e : Int}, sts.length = s.length →
    0 < size s → (isFAux s sts (.run e)).result = false →
    ∃ idx, InShape s idx ∧ byteOffset idx sts ≠ e * (rankF s idx : Int)
  | [], [], e, _, _, h => by simp [isFAux, Contig.result] at h
  | n :: s, st :: sts, e, hl, hp, h => by
    simp only [size] at hp
    have hn : 0 < n := Nat.pos_of_mul_pos_right hp
    have hs : 0 < size s := Nat.pos_of_mul_pos_left hp
    simp only [isFAux, contigStep] at h
    split at h
    · omega
    · split at h
      · rename_i h1
        refine ⟨1 :: List.replicate s.length 0, ⟨by omega, inShape_replicate_zero hs⟩, ?_⟩
        simp only [byteOffset, byteOffset_replicate_zero, rankF, rankF_replicate_zero]
        intro hcon
        apply h1.2
        push_cast at hcon
        linarith
      · obtain ⟨idx, hi, hne⟩ := isFAux_complete (by simpa using hl) hs h
        refine ⟨0 :: idx, ⟨hn, hi⟩, ?_⟩
        simp only [byteOffset, rankF]
        intro hcon
        apply hne
        push_cast at hcon ⊢
        linarith

end Rumpy
