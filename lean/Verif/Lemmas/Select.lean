import Verif.Model.Select
import Verif.Lemmas.Array
/-!
# Lemmas: selection
-/

namespace Rumpy
open Spec

theorem writes_zipIdx_aux (f : β → α) : ∀ (l : List β) (pre mid : List α), mid.length = l.length →
    writes ((l.zipIdx pre.length).map fun x => (x.2, f x.1)) (pre ++ mid) = pre ++ l.map f
  | [], pre, mid, h => by
    have : mid = [] := List.length_eq_zero_iff.1 h
    simp [this]
  | x :: l, pre, [], h => by simp at h
  | x :: l, pre, m :: mid, h => by
    have ih := writes_zipIdx_aux f l (pre ++ [f x]) mid (by simpa using h)
    simp only [List.zipIdx_cons, List.map_cons, writes_cons]
    rw [List.set_append_right _ _ (by simp)]
    simpa using ih

/-- Stores at 0, 1, 2, … fill the buffer in order. -/
theorem writes_zipIdx (f : β → α) (l : List β) (d : List α) (h : d.length = l.length) :
    writes (l.zipIdx.map fun x => (x.2, f x.1)) d = l.map f := by
  simpa using writes_zipIdx_aux f l [] d h

theorem packLoop_eq (p : ι → Bool) (f : ι → α) : ∀ (l : List ι) (d : Nat),
    packLoop p f l d = ((l.filter p).zipIdx d).map fun x => (x.2, f x.1)
  | [], d => rfl
  | i :: l, d => by
    unfold packLoop
    by_cases h : p i
    · simp [h, packLoop_eq p f l (d + 1)]
    · simp [h, packLoop_eq p f l d]

/-- The two passes of "count, then copy". -/
theorem writes_packLoop (p : ι → Bool) (f : ι → α) (l : List ι) (d : List α)
    (h : d.length = (l.filter p).length) : writes (packLoop p f l 0) d = (l.filter p).map f := by
  rw [packLoop_eq, writes_zipIdx f _ d h]

theorem count_foldl (p : ι → Bool) : ∀ (l : List ι) (c : Nat),
    l.foldl (fun c i => if p i then c + 1 else c) c = c + (l.filter p).length
  | [], c => by simp
  | i :: l, c => by
    by_cases h : p i
    · simp [h, count_foldl p l (c + 1)]; omega
    · simp [h, count_foldl p l c]

theorem normalizeIdx_eq (i : Int) (n : Nat) : normalizeIdx i n = pyIndex n i := by
  unfold normalizeIdx pyIndex
  by_cases h : i < 0
  · simp only [h, if_true]
    rw [if_neg (by omega : ¬ (0 ≤ i ∧ i < (n : Int)))]
    by_cases h2 : 0 ≤ (n : Int) + i
    · rw [if_pos ⟨h2, by omega⟩, if_pos ⟨trivial, by omega⟩]
    · rw [if_neg (by omega), if_neg (by omega)]
  · simp only [h, if_false, false_and]

theorem pyIndex_lt {n : Nat} {i : Int} {k : Nat} (h : pyIndex n i = some k) : k < n := by
  unfold pyIndex at h
  split at h
  · simp only [Option.some.injEq] at h; omega
  · split at h
    · simp only [Option.some.injEq] at h; omega
    · simp at h

theorem indices_append (a b : List Nat) :
    indices (a ++ b) = (indices a).flatMap fun i => (indices b).map fun t => i ++ t := by
  induction a with
  | nil => simp [indices]
  | cons n a ih =>
    simp only [List.cons_append, indices, ih, List.flatMap_assoc, List.map_flatMap, List.flatMap_map,
      List.map_map, Function.comp_def, List.cons_append]

theorem indices_zipIdx (s : List Nat) : (indices s).zipIdx = (indices s).map fun i => (i, rank s i) := by
  apply List.ext_getElem?
  intro k
  simp only [List.getElem?_zipIdx, List.getElem?_map, Nat.zero_add]
  cases h : (indices s)[k]? with
  | none => rfl
  | some i =>
    have hk : k < (indices s).length := (List.getElem?_eq_some_iff.1 h).1
    have h4 : ((indices s).map (rank s))[k]? = some k := by
      rw [map_rank_indices]
      rw [length_indices] at hk
      simp [hk]
    rw [List.getElem?_map, h] at h4
    simp only [Option.map_some, Option.some.injEq] at h4
    simp [h4]

theorem writes_odometer (s : List Nat) (f : List Nat → α) (d : List α) (hd : d.length = size s) :
    writes ((odometerAll s).zipIdx.map fun io => (io.2, f io.1)) d = (indices s).map f := by
  rw [odometerAll_eq, writes_zipIdx f _ d (by rw [hd, length_indices])]

theorem zipIdx_eq_range' (d : β) (ks : List β) : ks.zipIdx = (List.range ks.length).map fun i => (ks.getD i d, i) := by
  apply List.ext_getElem?
  intro k
  simp only [List.getElem?_zipIdx, List.getElem?_map, Nat.zero_add]
  by_cases h : k < ks.length
  · simp [h, List.getD]
  · simp [h]

theorem zipIdx_eq_range (ks : List Nat) : ks.zipIdx = (List.range ks.length).map fun i => (ks.getD i 0, i) :=
  zipIdx_eq_range' 0 ks

theorem addrs_eq {v : View} (hw : v.WF) : v.addrs = (indices v.shape).map v.addr := by
  unfold View.addrs
  rw [toList_new hw.len]
  rfl

theorem addrs_map {v : View} (hw : v.WF) (mem : Int → α) : v.addrs.map mem = (v.denote mem).toList := by
  rw [addrs_eq hw, List.map_map]; rfl

/-- For a C-contiguous view with no empty axis whose first axis is longer than one, the first
stride is the size of a row. -/
theorem cFlag_stride0 {v : View} (hw : v.WF) (hc : v.cFlag = true) {n : Nat} {s : List Nat}
    (hs : v.shape = n :: s) (hn : 2 ≤ n) (hp : 0 < size s) :
    v.strides.headD 0 = ((v.item * size s : Nat) : Int) := by
  have h := hw.c hc
  have hl := hw.len
  rcases he : v.strides with _ | ⟨st, sts⟩
  · simp [hs, he] at hl
  · rw [hs, he] at h
    rw [hs, he] at hl
    unfold isCContiguous at h
    rw [isCAux] at h
    rcases hr : isCAux v.item s sts with e | b
    · have h1 := (isCAux_run (by simpa using hl) hr).1
      rw [hr] at h
      unfold contigStep at h
      simp only at h
      rw [if_neg (by omega)] at h
      by_cases h2 : st = e
      · simp [h2, h1]
      · rw [if_pos ⟨by omega, h2⟩] at h
        simp [Contig.result] at h
    · rw [hr] at h
      simp only [contigStep, Contig.result] at h
      subst h
      have := isCAux_done_true hr
      omega

theorem selectRows_eq (a : Nd α) (n : Nat) (s : List Nat) (hs : 0 < size s) :
    ∀ (iv : List Int) (i : Nat), selectRows a n s (selectSliceSize s) iv i =
      (iv.mapM fun x => pyIndex n x).map fun ks => (ks.zipIdx i).flatMap fun ki =>
        (indices s).map fun t => (ki.2 * size s + rank s t, a.get (ki.1 :: t))
  | [], i => by simp [selectRows]
  | x :: iv, i => by
    have hss : selectSliceSize s = size s := by simp [selectSliceSize, sizeOf_eq]; omega
    have ho : odometer s (size s) (List.replicate s.length 0) = indices s := odometer_eq s
    unfold selectRows
    rw [selectRows_eq a n s hs iv (i + 1), hss, ho, indices_zipIdx, normalizeIdx_eq, List.mapM_cons]
    cases pyIndex n x with
    | none => rfl
    | some k =>
      cases (iv.mapM fun x => pyIndex n x) with
      | none => rfl
      | some ks =>
        simp [Function.comp_def]

theorem selectRows_none (a : Nd α) (n : Nat) (s : List Nat) (ss : Nat) :
    ∀ (iv : List Int) (i : Nat), (selectRows a n s ss iv i).isSome ↔ ∀ x ∈ iv, (pyIndex n x).isSome
  | [], i => by simp [selectRows]
  | x :: iv, i => by
    unfold selectRows
    rw [normalizeIdx_eq]
    have ih := selectRows_none a n s ss iv (i + 1)
    cases hx : pyIndex n x with
    | none => simp [hx]
    | some k =>
      cases h : selectRows a n s ss iv (i + 1) with
      | none => rw [h] at ih; simpa [hx] using ih
      | some ws => rw [h] at ih; simpa [hx] using ih

theorem flat_rows (ks : List Nat) (s : List Nat) (f : Nat → List Nat → α) :
    (ks.zipIdx.flatMap fun ki => (indices s).map fun t => (ki.2 * size s + rank s t, f ki.1 t)) =
      (indices (ks.length :: s)).map fun idx =>
        (rank (ks.length :: s) idx, f (ks.getD (idx.headD 0) 0) idx.tail) := by
  rw [zipIdx_eq_range]
  simp only [indices, List.flatMap_map, List.map_flatMap, List.map_map, Function.comp_def, rank,
    List.headD_cons, List.tail_cons]

theorem mapM_some_iff {f : β → Option γ} : ∀ {l : List β} {r : List γ},
    l.mapM f = some r ↔ List.Forall₂ (fun x y => f x = some y) l r
  | [], r => by cases r <;> simp
  | x :: l, r => by
    rw [List.mapM_cons]
    cases hx : f x with
    | none =>
      simp only [Option.bind_eq_bind, Option.bind_none, reduceCtorEq, false_iff]
      intro h
      cases h with
      | cons h1 h2 => rw [hx] at h1; simp at h1
    | some y =>
      cases hm : l.mapM f with
      | none =>
        simp only [Option.bind_eq_bind, Option.bind_some, Option.bind_none, reduceCtorEq, false_iff]
        intro h
        cases h with
        | cons h1 h2 => rw [← mapM_some_iff, hm] at h2; simp at h2
      | some ys =>
        have ih := fun r => mapM_some_iff (f := f) (l := l) (r := r)
        rw [hm] at ih
        simp only [Option.bind_eq_bind, Option.bind_some, Option.pure_def, Option.some.injEq]
        constructor
        · rintro rfl
          exact .cons hx ((ih ys).1 rfl)
        · intro h
          cases h with
          | cons h1 h2 =>
            rw [hx] at h1
            rw [Option.some.inj h1, Option.some.inj ((ih _).2 h2)]

theorem mapM_isSome_iff {f : β → Option γ} : ∀ {l : List β},
    (l.mapM f).isSome ↔ ∀ x ∈ l, (f x).isSome
  | [] => by simp
  | x :: l => by
    have ih := mapM_isSome_iff (f := f) (l := l)
    rw [List.mapM_cons]
    cases hy : f x with
    | none => simp [hy]
    | some k =>
      cases hm : l.mapM f with
      | none => rw [hm] at ih; simpa [hy] using ih
      | some r => rw [hm] at ih; simpa [hy] using ih

theorem indices_singleton (n : Nat) : indices [n] = (List.range n).map fun i => [i] := by
  simp [indices, ← List.map_eq_flatMap]

end Rumpy
