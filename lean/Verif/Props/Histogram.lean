import Verif.Lemmas.Stats
import Verif.Lemmas.Create
/-!
# Property C49 (bincount, histogram, histogram2d, histogramdd)
-/

namespace Props
open Spec Rumpy

/-! ### bincount -/

theorem bincountMax_none (l : List ℚ) : ∀ m, bincountMax l m = none ↔ ∃ x ∈ l, x ≤ -1 := by
  induction l with
  | nil => simp [bincountMax]
  | cons x l ih =>
    intro m
    unfold bincountMax
    by_cases h : ratToI64 x < 0
    · rw [if_pos h]; simp [(ratToI64_neg_iff x).1 h]
    · rw [if_neg h, ih]
      rw [ratToI64_neg_iff] at h
      simp [h]

theorem bincountMax_nat (ks : List Nat) : ∀ m : Nat,
    bincountMax (ks.map fun k : Nat => (k : ℚ)) m = some ((ks.foldl max m : Nat) : Int) := by
  induction ks with
  | nil => intro m; rfl
  | cons k ks ih =>
    intro m
    rw [List.map_cons, bincountMax, ratToI64_natCast, if_neg (by omega), List.foldl_cons, ← ih]
    congr 1
    split <;> omega

theorem le_foldl_max (ks : List Nat) : ∀ m k, k ≤ m ∨ k ∈ ks → k ≤ ks.foldl max m := by
  induction ks with
  | nil => intro m k h; simpa using h
  | cons a ks ih =>
    intro m k h
    rw [List.foldl_cons]
    apply ih
    simp only [List.mem_cons] at h
    rcases h with h | rfl | h
    · left; omega
    · left; omega
    · right; exact h

theorem foldl_max_mem (ks : List Nat) : ∀ m, ks.foldl max m = m ∨ ks.foldl max m ∈ ks := by
  induction ks with
  | nil => intro m; simp
  | cons a ks ih =>
    intro m
    rw [List.foldl_cons]
    rcases ih (max m a) with h | h
    · rcases Nat.le_total m a with h' | h'
      · right; rw [h, Nat.max_eq_right h']; simp
      · left; rw [h, Nat.max_eq_left h']
    · right; exact List.mem_cons_of_mem _ h

theorem sum_indicator {P : Nat → Prop} [DecidablePred P] (hP : ∀ i j, P i → P j → i = j) : ∀ n,
    ((List.range n).map fun i => if P i then 1 else 0).sum = if ∃ i, i < n ∧ P i then 1 else 0
  | 0 => by simp
  | n + 1 => by
    rw [List.range_succ, List.map_append, List.sum_append, sum_indicator hP n]
    by_cases h1 : ∃ i, i < n ∧ P i
    · obtain ⟨i, hi, hp⟩ := h1
      have hn : ¬ P n := fun h => by have := hP _ _ h hp; omega
      rw [if_pos ⟨i, hi, hp⟩, if_pos ⟨i, by omega, hp⟩]
      simp [hn]
    · rw [if_neg h1]
      by_cases hn : P n
      · rw [if_pos ⟨n, by omega, hn⟩]; simp [hn]
      · rw [if_neg]
        · simp [hn]
        · rintro ⟨i, hi, hp⟩
          rcases Nat.lt_succ_iff_lt_or_eq.1 hi with h | rfl
          · exact h1 ⟨i, h, hp⟩
          · exact hn hp

/-- Counts of exclusive classes add up to the count of their union. -/
theorem sum_countP {α : Type} {P : Nat → α → Prop} [∀ i x, Decidable (P i x)] {q : α → Bool} (n : Nat) (l : List α)
    (hq : ∀ x ∈ l, q x = true ↔ ∃ i, i < n ∧ P i x) (hP : ∀ i j x, P i x → P j x → i = j) :
    ((List.range n).map fun i => l.countP fun x => P i x).sum = l.countP q := by
  induction l with
  | nil => simp
  | cons a l ih =>
    simp only [List.countP_cons]
    rw [List.sum_map_add, ih fun x hx => hq x (by simp [hx])]
    congr 1
    have := sum_indicator (P := fun i => P i a) (fun i j => hP i j a) n
    simp only [decide_eq_true_eq]
    rw [this]
    by_cases h : q a = true
    · rw [if_pos ((hq a (by simp)).1 h), if_pos h]
    · rw [if_neg (fun h' => h ((hq a (by simp)).2 h')), if_neg h]

/-- C49: for a vector of non-negative integers entry `i` of `bincount` is the number of times `i` occurs; the result
is just long enough for every value and for `minlength`. -/
theorem C49_bincount {v : View} (hw : v.WF) (hd : v.shape.length = 1) (mem : Int → ℚ) (ks : List Nat)
    (hk : (v.denote mem).toList = ks.map fun k : Nat => (k : ℚ)) (minlength : Nat) :
    ∃ counts, bincount mem v minlength = some (some counts) ∧
      (∀ i, i < counts.length → counts[i]? = some (ks.count i)) ∧
      minlength ≤ counts.length ∧ (∀ k ∈ ks, k < counts.length) ∧
      (counts.length = minlength ∨ ∃ k ∈ ks, counts.length = k + 1) := by
  have hlen : ks.length = size v.shape := by
    have := congrArg List.length hk
    rw [Nd.length_toList, List.length_map] at this
    exact this.symm
  unfold bincount
  rw [if_neg (by simpa using hd), sizeOf_eq]
  by_cases h0 : size v.shape = 0
  · rw [if_pos h0]
    have : ks = [] := List.length_eq_zero_iff.1 (by omega)
    subst this
    exact ⟨_, rfl, fun i hi => by
      rw [List.length_replicate] at hi
      simp [List.getElem?_replicate, hi], by simp, by simp, by simp⟩
  · rw [if_neg h0]
    dsimp only
    rw [addrs_map hw, hk]
    have hm := bincountMax_nat ks 0
    simp only [Nat.cast_zero] at hm
    rw [hm]
    dsimp only
    rw [Int.toNat_natCast]
    generalize hN : max (ks.foldl max 0 + 1) minlength = N
    rw [count_fold_zero (fun x => some (ratToUsize x)) _ N _ ?_]
    · refine ⟨_, rfl, ?_, ?_, ?_, ?_⟩
      · intro i hi
        rw [List.length_map, List.length_range] at hi
        simp only [List.getElem?_map, List.getElem?_range hi, Option.map_some, Option.some.injEq, Nat.cast_id,
          List.countP_map, List.count]
        apply List.countP_congr
        intro k _
        simp [ratToUsize_natCast]
      · simp; omega
      · intro k hk'
        have := le_foldl_max ks 0 k (Or.inr hk')
        simp; omega
      · simp only [List.length_map, List.length_range]
        rcases foldl_max_mem ks 0 with h | h
        · rcases Nat.lt_or_ge minlength 1 with h1 | h1
          · right
            obtain ⟨k, hk'⟩ := List.exists_mem_of_length_pos (l := ks) (by omega)
            have := le_foldl_max ks 0 k (Or.inr hk')
            exact ⟨k, hk', by omega⟩
          · left; omega
        · rcases Nat.le_total (ks.foldl max 0 + 1) minlength with h1 | h1
          · left; omega
          · right; exact ⟨_, h, by omega⟩
    · intro c x hx hc
      obtain ⟨k, hk', rfl⟩ := List.mem_map.1 hx
      have := le_foldl_max ks 0 k (Or.inr hk')
      rw [ratToUsize_natCast, if_pos (by omega)]

/-- C49: the counts of `bincount` add up to the number of elements. -/
theorem C49_bincount_total {v : View} (hw : v.WF) (hd : v.shape.length = 1) (mem : Int → ℚ) (ks : List Nat)
    (hk : (v.denote mem).toList = ks.map fun k : Nat => (k : ℚ)) (minlength : Nat) {counts : List Nat}
    (h : bincount mem v minlength = some (some counts)) : counts.sum = ks.length := by
  obtain ⟨c, hc, h1, -, h3, -⟩ := C49_bincount hw hd mem ks hk minlength
  rw [h] at hc
  cases hc
  have e : counts = (List.range counts.length).map fun i => ks.countP fun k => k = i := by
    apply List.ext_getElem? fun i => ?_
    by_cases hi : i < counts.length
    · rw [h1 i hi]; simp [hi, List.count, beq_eq_decide]
    · rw [List.getElem?_eq_none (by omega), List.getElem?_eq_none (by simp; omega)]
  rw [e]
  rw [sum_countP (P := fun i k => k = i) (q := fun _ => true) _ _ (fun x hx => by simpa using h3 x hx)
    (fun i j x h1 h2 => h1.symm.trans h2)]
  simp

/-- C49: `bincount` is refused exactly for arrays that are not vectors and for values of -1 or less. -/
theorem C49_bincount_refused_iff {v : View} (hw : v.WF) (mem : Int → ℚ) (minlength : Nat) :
    bincount mem v minlength = none ↔
      v.shape.length ≠ 1 ∨ ∃ x ∈ (v.denote mem).toList, x ≤ -1 := by
  unfold bincount
  by_cases hd : v.shape.length ≠ 1
  · simp [hd]
  · rw [if_neg hd, sizeOf_eq]
    simp only [hd, false_or]
    by_cases h0 : size v.shape = 0
    · rw [if_pos h0]
      have : (v.denote mem).toList = [] := List.length_eq_zero_iff.1 (by rw [Nd.length_toList]; exact h0)
      simp [this]
    · rw [if_neg h0, addrs_map hw, ← bincountMax_none _ 0]
      cases bincountMax (v.denote mem).toList 0 <;> simp

example : bincount (fun a => [(3 : ℚ), 0, 3, 1].getD (a / 8).toNat 0) (View.fresh [4] 8) 0 = some (some [1, 1, 0, 2]) := by
  decide +kernel

/-- C49 fails for fractions: numpy refuses them, here `bincount([0.5, 1.7])` is `[1, 1]`, and -0.5 counts as 0. -/
theorem C49_bincount_counterexample :
    bincount (fun a => [(1 / 2 : ℚ), 17 / 10, -1 / 2].getD (a / 8).toNat 0) (View.fresh [3] 8) 0 = some (some [2, 1]) := by
  decide +kernel

/-! ### histogram -/

theorem foldMin_some (l : List ℚ) : ∀ a : ℚ,
    l.foldl (fun acc x => some (match acc with | none => x | some a => min a x)) (some a) = some (l.foldl min a) := by
  induction l with
  | nil => intro a; rfl
  | cons x l ih => intro a; rw [List.foldl_cons, List.foldl_cons, ← ih]

theorem foldMax_some (l : List ℚ) : ∀ a : ℚ,
    l.foldl (fun acc x => some (match acc with | none => x | some a => max a x)) (some a) = some (l.foldl max a) := by
  induction l with
  | nil => intro a; rfl
  | cons x l ih => intro a; rw [List.foldl_cons, List.foldl_cons, ← ih]

theorem foldl_min_spec (l : List ℚ) : ∀ a : ℚ, (l.foldl min a = a ∨ l.foldl min a ∈ l) ∧
    l.foldl min a ≤ a ∧ ∀ x ∈ l, l.foldl min a ≤ x := by
  induction l with
  | nil => intro a; simp
  | cons b l ih =>
    intro a
    obtain ⟨h1, h2, h3⟩ := ih (min a b)
    rw [List.foldl_cons]
    refine ⟨?_, h2.trans (min_le_left _ _), ?_⟩
    · rcases h1 with h1 | h1
      · rw [h1]
        rcases le_total a b with h | h
        · left; exact min_eq_left h
        · right; rw [min_eq_right h]; simp
      · right; simp [h1]
    · intro x hx
      rcases List.mem_cons.1 hx with rfl | hx
      · exact h2.trans (min_le_right _ _)
      · exact h3 x hx

theorem foldl_max_spec (l : List ℚ) : ∀ a : ℚ, (l.foldl max a = a ∨ l.foldl max a ∈ l) ∧
    a ≤ l.foldl max a ∧ ∀ x ∈ l, x ≤ l.foldl max a := by
  induction l with
  | nil => intro a; simp
  | cons b l ih =>
    intro a
    obtain ⟨h1, h2, h3⟩ := ih (max a b)
    rw [List.foldl_cons]
    refine ⟨?_, (le_max_left _ _).trans h2, ?_⟩
    · rcases h1 with h1 | h1
      · rw [h1]
        rcases le_total a b with h | h
        · right; rw [max_eq_right h]; simp
        · left; exact max_eq_left h
      · right; simp [h1]
    · intro x hx
      rcases List.mem_cons.1 hx with rfl | hx
      · exact (le_max_right _ _).trans h2
      · exact h3 x hx

theorem foldMin_spec {l : List ℚ} (h : l ≠ []) : ∃ m, foldMin l = some m ∧ m ∈ l ∧ ∀ x ∈ l, m ≤ x := by
  cases l with
  | nil => exact absurd rfl h
  | cons a l =>
    obtain ⟨h1, h2, h3⟩ := foldl_min_spec l a
    refine ⟨_, by unfold foldMin; rw [List.foldl_cons]; exact foldMin_some l a, ?_, ?_⟩
    · rcases h1 with h1 | h1
      · rw [h1]; simp
      · simp [h1]
    · intro x hx
      rcases List.mem_cons.1 hx with rfl | hx
      · exact h2
      · exact h3 x hx

theorem foldMax_spec {l : List ℚ} (h : l ≠ []) : ∃ m, foldMax l = some m ∧ m ∈ l ∧ ∀ x ∈ l, x ≤ m := by
  cases l with
  | nil => exact absurd rfl h
  | cons a l =>
    obtain ⟨h1, h2, h3⟩ := foldl_max_spec l a
    refine ⟨_, by unfold foldMax; rw [List.foldl_cons]; exact foldMax_some l a, ?_, ?_⟩
    · rcases h1 with h1 | h1
      · rw [h1]; simp
      · simp [h1]
    · intro x hx
      rcases List.mem_cons.1 hx with rfl | hx
      · exact h2
      · exact h3 x hx

/-- The range a histogram covers: the given one, or smallest to largest value (`0` to `1` without values). -/
def HistRange (l : List ℚ) (range : Option (ℚ × ℚ)) (lo hi : ℚ) : Prop :=
  match range with
  | some r => r = (lo, hi)
  | none => (l = [] ∧ lo = 0 ∧ hi = 1) ∨ (lo ∈ l ∧ hi ∈ l ∧ ∀ x ∈ l, lo ≤ x ∧ x ≤ hi)

theorem histRange_spec (l : List ℚ) (range : Option (ℚ × ℚ)) :
    HistRange l range (histRange l range).1 (histRange l range).2 := by
  unfold histRange
  cases range with
  | some r => rfl
  | none =>
    cases l with
    | nil => exact Or.inl ⟨rfl, rfl, rfl⟩
    | cons a l =>
      obtain ⟨m, hm, m1, m2⟩ := foldMin_spec (l := a :: l) (by simp)
      obtain ⟨M, hM, M1, M2⟩ := foldMax_spec (l := a :: l) (by simp)
      dsimp only [HistRange]
      rw [hm, hM]
      exact Or.inr ⟨m1, M1, fun x hx => ⟨m2 x hx, M2 x hx⟩⟩

theorem histRange_unique {l : List ℚ} {range : Option (ℚ × ℚ)} {lo hi : ℚ} (h : HistRange l range lo hi) :
    histRange l range = (lo, hi) := by
  have h' := histRange_spec l range
  generalize histRange l range = r at h'
  obtain ⟨a, b⟩ := r
  cases range with
  | some r => exact (show r = (a, b) from h').symm.trans h
  | none =>
    rcases h with ⟨rfl, rfl, rfl⟩ | ⟨h1, h2, h3⟩
    · rcases h' with ⟨-, h1, h2⟩ | ⟨h1, -⟩
      · exact Prod.ext h1 h2
      · exact absurd h1 (by simp)
    · rcases h' with ⟨rfl, -⟩ | ⟨g1, g2, g3⟩
      · exact absurd h1 (by simp)
      · exact Prod.ext (le_antisymm (g3 _ h1).1 (h3 _ g1).1) (le_antisymm (h3 _ g2).2 (g3 _ h2).2)

/-- C49 (partial): for a range with `lo < hi` and at least one bin, count `i` is the number of elements in bin `i`
and edge `i` is `lo + i (hi - lo) / bins`, for every memory layout.  (Missing: constant data, for which numpy widens
the range.) -/
theorem C49_histogram_partial {v : View} (hw : v.WF) (mem : Int → ℚ) {bins : Nat} (hb : 0 < bins)
    {range : Option (ℚ × ℚ)} {lo hi : ℚ} (hr : HistRange (v.denote mem).toList range lo hi) (hlt : lo < hi) :
    histogram mem v bins range =
      .ok ((List.range bins).map fun i => (v.denote mem).toList.countP fun x => InBin lo hi bins i x,
        (List.range (bins + 1)).map fun i => edge lo hi bins i) := by
  unfold histogram histogramOf binEdges
  rw [addrs_map hw, histRange_unique hr]
  dsimp only
  rw [count_fold_zero (fun x => if lo ≤ x ∧ x ≤ hi then binIndex lo ((hi - lo) / bins) bins x else none) _ bins _ ?_]
  · dsimp only
    congr 2
    apply List.map_congr_left
    intro i _
    rw [Nat.cast_id]
    apply List.countP_congr
    intro x _
    simp only [decide_eq_true_eq]
    by_cases hx : lo ≤ x ∧ x ≤ hi
    · rw [if_pos hx, binIndex_eq_some_iff hlt hb hx.1 hx.2]
    · rw [if_neg hx]
      simp only [reduceCtorEq, false_iff]
      intro h
      exact hx (inBin_le hlt.le h)
  · intro c x _ _
    by_cases hx : lo ≤ x ∧ x ≤ hi
    · rw [if_pos hx, if_pos hx]
      obtain ⟨k, hk, -⟩ := binIndex_spec hlt hb hx.1 hx.2
      rw [hk]; rfl
    · rw [if_neg hx, if_neg hx]


/-- Every value of the range is in some bin. -/
theorem inBin_exists {lo hi : ℚ} (h : lo < hi) {bins : Nat} (hb : 0 < bins) {x : ℚ} :
    (lo ≤ x ∧ x ≤ hi) ↔ ∃ i, i < bins ∧ InBin lo hi bins i x := by
  constructor
  · rintro ⟨h1, h2⟩
    obtain ⟨i, -, hi'⟩ := binIndex_spec h hb h1 h2
    exact ⟨i, hi'.1, hi'⟩
  · rintro ⟨i, -, hi'⟩
    exact inBin_le h.le hi'

/-- C49 (partial): the counts add up to the number of elements in the range; with the default range to the number of
elements. -/
theorem C49_histogram_total_partial {v : View} (hw : v.WF) (mem : Int → ℚ) {bins : Nat} (hb : 0 < bins)
    {range : Option (ℚ × ℚ)} {lo hi : ℚ} (hr : HistRange (v.denote mem).toList range lo hi) (hlt : lo < hi)
    {counts : List Nat} {edges : List ℚ} (h : histogram mem v bins range = .ok (counts, edges)) :
    counts.sum = ((v.denote mem).toList.countP fun x => lo ≤ x ∧ x ≤ hi) ∧
      (range = none → counts.sum = size v.shape) := by
  rw [C49_histogram_partial hw mem hb hr hlt] at h
  have h' := Outcome.ok.inj h
  have e : counts.sum = (v.denote mem).toList.countP fun x => lo ≤ x ∧ x ≤ hi := by
    rw [← (Prod.mk.inj h').1]
    exact sum_countP (P := fun i x => InBin lo hi bins i x) bins _ (fun x _ => by simpa using inBin_exists hlt hb)
      (fun i j x => inBin_unique hlt)
  refine ⟨e, ?_⟩
  rintro rfl
  rw [e, ← show (v.denote mem).toList.length = size v.shape from Nd.length_toList _, List.countP_eq_length]
  intro x hx
  rcases hr with ⟨h0, -⟩ | ⟨-, -, h3⟩
  · rw [h0] at hx; simp at hx
  · simpa using h3 x hx

/-- C49: a histogram fails exactly when it has no bins and some element lies in the range. -/
theorem C49_histogram_panic_iff {v : View} (hw : v.WF) (mem : Int → ℚ) (bins : Nat)
    {range : Option (ℚ × ℚ)} {lo hi : ℚ} (hr : HistRange (v.denote mem).toList range lo hi) :
    histogram mem v bins range = .panic ↔ bins = 0 ∧ ∃ x ∈ (v.denote mem).toList, lo ≤ x ∧ x ≤ hi := by
  unfold histogram histogramOf
  rw [addrs_map hw, histRange_unique hr]
  dsimp only
  generalize (v.denote mem).toList = l
  generalize List.replicate bins 0 = c
  generalize (hi - lo) / (bins : ℚ) = w
  suffices key : l.foldlM (fun counts val => if val ≥ lo ∧ val ≤ hi then
      (binIndex lo w bins val).map fun b => counts.modify b (· + 1) else some counts) c = none ↔
      bins = 0 ∧ ∃ x ∈ l, lo ≤ x ∧ x ≤ hi by
    rw [← key]
    split <;> simp_all
  clear hr
  induction l generalizing c with
  | nil => simp
  | cons a l ih =>
    rw [List.foldlM_cons]
    by_cases ha : a ≥ lo ∧ a ≤ hi
    · rw [if_pos ha]
      cases hb : binIndex lo w bins a with
      | none =>
        have : bins = 0 := by
          unfold binIndex at hb
          dsimp only at hb
          split at hb
          · split at hb
            · assumption
            · cases hb
          · cases hb
        simp only [Option.map_none, List.mem_cons, exists_eq_or_imp]
        exact iff_of_true rfl ⟨this, Or.inl ha⟩
      | some k =>
        have : bins ≠ 0 := by
          rintro rfl
          simp [binIndex] at hb
        have := ih (c.modify k (· + 1))
        simp_all
    · rw [if_neg ha]
      have := ih c
      simp only [List.mem_cons, exists_eq_or_imp]
      rw [or_iff_right (by simpa using ha), ← this]
      rfl

example : HistRange [1, 2, 1, 4] none 1 4 := Or.inr (by simp; norm_num)

example : histogram (fun a => [(1 : ℚ), 2, 1, 4].getD (a / 8).toNat 0) (View.fresh [4] 8) 3 none =
    .ok ([2, 1, 1], [1, 2, 3, 4]) := by decide +kernel

/-- C49 fails for constant data: `histogram([5, 5], bins=2)` has three equal edges and counts both in the first bin,
which is empty; numpy widens the range to `[4.5, 5.5]` and counts both in the second bin. -/
theorem C49_histogram_counterexample :
    histogram (fun _ => (5 : ℚ)) (View.fresh [2] 8) 2 none = .ok ([2, 0], [5, 5, 5]) ∧
      ([5, 5] : List ℚ).countP (fun x => InBin 5 5 2 0 x) = 0 := by decide +kernel

/-- C49 fails without bins: numpy raises a `ValueError`, the code underflows and indexes out of bounds. -/
theorem C49_histogram_no_bins_counterexample :
    histogram (fun _ => (5 : ℚ)) (View.fresh [2] 8) 0 (some (0, 10)) = .panic := by decide +kernel

/-! ### several dimensions -/

theorem densityOf_false (c : List ℚ) (w : ℚ) (b : Bool) : densityOf c w false b = c := by simp [densityOf]

theorem sum_div (c : List ℚ) (k : ℚ) : (c.map (· / k)).sum = c.sum / k := by
  induction c with
  | nil => simp
  | cons a c ih => simp [ih, add_div]

/-- C49 (partial): the density normalisation divides every count by the total times the bin volume, and the result
integrates to one. -/
theorem densityOf_true {c : List ℚ} {w : ℚ} (hc : 0 < c.sum) (hw : 0 < w) :
    densityOf c w true true = c.map (· / (c.sum * w)) ∧ (densityOf c w true true).sum * w = 1 := by
  have e : densityOf c w true true = c.map (· / (c.sum * w)) := by simp [densityOf, hc, hw]
  refine ⟨e, ?_⟩
  rw [e, sum_div]
  field_simp

theorem toList_map {α β : Type} (nd : Nd α) (f : α → β) : nd.toList.map f = (⟨nd.shape, fun idx => f (nd.get idx)⟩ : Nd β).toList := by
  simp [Nd.toList, Function.comp_def]

/-- Counts by position are counts by multi-index. -/
theorem range_indices (s : List Nat) (f : Nat → ℚ) : (List.range (size s)).map f = (⟨s, fun idx => f (rank s idx)⟩ : Nd ℚ).toList := by
  rw [← map_rank_indices s, List.map_map]; rfl

theorem toList_congr {α : Type} {a b : Nd α} (h : a.Same b) : a.toList = b.toList := Rumpy.Nd.Same.toList h

theorem cast_sum (l : List Nat) : ((l.sum : Nat) : ℚ) = (l.map fun n : Nat => (n : ℚ)).sum := by
  induction l with
  | nil => simp
  | cons a l ih => simp [ih]

/-- The total of counts of exclusive classes indexed by a multi-index. -/
theorem sum_indices {α : Type} (s : List Nat) (g : α → Option Nat) (l : List α) :
    ((List.range (size s)).map fun i => ((l.countP fun x => g x = some i : Nat) : ℚ)).sum =
      ((l.countP fun x => ((g x).any fun i => i < size s) : Nat) : ℚ) := by
  have h := sum_countP (P := fun i x => g x = some i) (q := fun x => (g x).any fun i => i < size s) (size s) l
    (fun x _ => by
      cases h : g x with
      | none => simp
      | some k => simp [and_comm, eq_comm])
    (fun i j x h1 h2 => by rw [h1] at h2; exact Option.some.inj h2)
  rw [← h, cast_sum, List.map_map]
  rfl

/-- Number of samples per box; with `density`, divided by the number of samples in all boxes and the box volume. -/
def boxValue {α : Type} (density : Bool) (samples : List α) (within : α → Bool) (volume : ℚ) (inBox : α → Bool) : ℚ :=
  if density then (samples.countP inBox : ℚ) / ((samples.countP within : ℚ) * volume) else samples.countP inBox

/-- The stored counts, plain or normalised. -/
theorem density_is {α : Type} {s : List Nat} {g : α → Option Nat} {l : List α} {w : ℚ} (hw : 0 < w) {within : α → Bool}
    {inBox : List Nat → α → Bool} (density : Bool) {ne : Bool} (hne : ne = !l.isEmpty)
    (h1 : ∀ x ∈ l, ((g x).any fun i => decide (i < size s)) = within x)
    (h2 : ∀ x ∈ l, ∀ idx, InShape s idx → (g x = some (rank s idx) ↔ inBox idx x = true))
    (hd : density = true → ∃ x ∈ l, within x = true) :
    (⟨s, densityOf ((List.range (size s)).map fun i => ((l.countP fun x => g x = some i : Nat) : ℚ)) w density ne⟩ : Arr ℚ).Is
      ⟨s, fun idx => boxValue density l within w (inBox idx)⟩ ∧
    (density = true →
      (densityOf ((List.range (size s)).map fun i => ((l.countP fun x => g x = some i : Nat) : ℚ)) w density ne).sum * w = 1) := by
  have hc : ∀ idx, InShape s idx → (l.countP fun x => g x = some (rank s idx)) = l.countP (inBox idx) := fun idx hi =>
    List.countP_congr fun x hx => by simpa using h2 x hx idx hi
  have ht : (l.countP fun x => ((g x).any fun i => i < size s)) = l.countP within :=
    List.countP_congr fun x hx => by rw [← h1 x hx]
  cases density with
  | false =>
    refine ⟨⟨rfl, ?_⟩, fun h => by cases h⟩
    dsimp only
    rw [densityOf_false, range_indices]
    exact toList_congr ⟨rfl, fun idx hi => by simp [boxValue, hc idx hi]⟩
  | true =>
    obtain ⟨x, hx, hin⟩ := hd rfl
    have hne' : ne = true := by
      rw [hne]; cases l with
      | nil => simp at hx
      | cons => rfl
    subst hne'
    have hsum := sum_indices s g l
    rw [ht] at hsum
    have hpos : (0 : ℚ) < (l.countP within : Nat) := by
      exact_mod_cast List.countP_pos_iff.2 ⟨x, hx, hin⟩
    obtain ⟨d1, d2⟩ := densityOf_true (by rw [hsum]; exact hpos) hw
    refine ⟨⟨rfl, ?_⟩, fun _ => d2⟩
    dsimp only
    rw [d1, hsum, List.map_map, range_indices]
    exact toList_congr ⟨rfl, fun idx hi => by simp [boxValue, hc idx hi]⟩

/-- The bin of a coordinate when it is in the range. -/
def binOf (lo hi : ℚ) (b : Nat) (x : ℚ) : Option Nat := if lo ≤ x ∧ x ≤ hi then binIndex lo ((hi - lo) / b) b x else none

theorem binOf_iff {lo hi : ℚ} (h : lo < hi) {b : Nat} (hb : 0 < b) (x : ℚ) (i : Nat) :
    binOf lo hi b x = some i ↔ InBin lo hi b i x := by
  unfold binOf
  by_cases hx : lo ≤ x ∧ x ≤ hi
  · rw [if_pos hx, binIndex_eq_some_iff h hb hx.1 hx.2]
  · rw [if_neg hx]
    simp only [reduceCtorEq, false_iff]
    exact fun h' => hx (inBin_le h.le h')

theorem binOf_none_iff {lo hi : ℚ} (h : lo < hi) {b : Nat} (hb : 0 < b) (x : ℚ) :
    binOf lo hi b x = none ↔ ¬ (lo ≤ x ∧ x ≤ hi) := by
  unfold binOf
  by_cases hx : lo ≤ x ∧ x ≤ hi
  · obtain ⟨i, hi', -⟩ := binIndex_spec h hb hx.1 hx.2
    simp [hx, hi']
  · simp [hx]

/-- C49 (partial): for ranges with `lo < hi` and at least one bin each way, entry `[i, j]` of `histogram2d` is the
number of points whose `x` is in bin `i` and whose `y` is in bin `j`; with `density` it is divided by the number of
points in the range times the area of a bin, and the result integrates to one. -/
theorem C49_histogram2d_partial {vx vy : View} (hx : vx.WF) (hy : vy.WF) (mx my : Int → ℚ)
    (hl : size vx.shape = size vy.shape) {bx py : Nat} (hbx : 0 < bx) (hpy : 0 < py)
    {range : Option ((ℚ × ℚ) × (ℚ × ℚ))} {xlo xhi ylo yhi : ℚ}
    (hrx : HistRange (vx.denote mx).toList (range.map (·.1)) xlo xhi)
    (hry : HistRange (vy.denote my).toList (range.map (·.2)) ylo yhi) (hxl : xlo < xhi) (hyl : ylo < yhi)
    (density : Bool) (points : List (ℚ × ℚ)) (hp : points = (vx.denote mx).toList.zip (vy.denote my).toList)
    (within : ℚ × ℚ → Bool)
    (hwi : ∀ p, within p = true ↔ (xlo ≤ p.1 ∧ p.1 ≤ xhi) ∧ ylo ≤ p.2 ∧ p.2 ≤ yhi)
    (hd : density = true → ∃ p ∈ points, within p = true) :
    ∃ h, histogram2d mx my vx vy bx py range density =
        .ok (h, (List.range (bx + 1)).map (fun i => edge xlo xhi bx i), (List.range (py + 1)).map fun j => edge ylo yhi py j) ∧
      h.Is ⟨[bx, py], fun idx => boxValue density points within ((xhi - xlo) / bx * ((yhi - ylo) / py))
        fun p => InBin xlo xhi bx (idx.getD 0 0) p.1 ∧ InBin ylo yhi py (idx.getD 1 0) p.2⟩ ∧
      (density = true → h.data.sum * ((xhi - xlo) / bx * ((yhi - ylo) / py)) = 1) := by
  have hbx' : (0 : ℚ) < bx := by exact_mod_cast hbx
  have hpy' : (0 : ℚ) < py := by exact_mod_cast hpy
  have hvol : 0 < (xhi - xlo) / bx * ((yhi - ylo) / py) :=
    mul_pos (div_pos (by linarith) hbx') (div_pos (by linarith) hpy')
  have hlen : (vx.denote mx).toList.length = (vy.denote my).toList.length := by
    rw [Nd.length_toList, Nd.length_toList]; exact hl
  unfold histogram2d histogram2dOf
  rw [addrs_map hx, addrs_map hy, if_neg (by simpa using hlen), histRange_unique hrx, histRange_unique hry]
  dsimp only
  rw [← hp]
  have hg : ∀ p : ℚ × ℚ, ∀ i j, i < bx → j < py →
      ((match binOf xlo xhi bx p.1, binOf ylo yhi py p.2 with
        | some i, some j => some (i * py + j) | _, _ => none) = some (i * py + j) ↔
      InBin xlo xhi bx i p.1 ∧ InBin ylo yhi py j p.2) := by
    intro p i j hi hj
    rw [← binOf_iff hxl hbx, ← binOf_iff hyl hpy]
    cases h1 : binOf xlo xhi bx p.1 with
    | none => simp
    | some i' =>
      cases h2 : binOf ylo yhi py p.2 with
      | none => simp
      | some j' =>
        have b1 := ((binOf_iff hxl hbx _ _).1 h1).1
        have b2 := ((binOf_iff hyl hpy _ _).1 h2).1
        simp only [Option.some.injEq]
        constructor
        · intro e
          have := two_inj b2 hj e
          exact this
        · rintro ⟨rfl, rfl⟩; rfl
  rw [count_fold_zero (fun p : ℚ × ℚ => match binOf xlo xhi bx p.1, binOf ylo yhi py p.2 with
        | some i, some j => some (i * py + j) | _, _ => none) _ (bx * py) _ ?_]
  · dsimp only
    have hs : bx * py = size [bx, py] := by simp [size]
    have key := density_is (s := [bx, py]) (g := fun p : ℚ × ℚ => match binOf xlo xhi bx p.1, binOf ylo yhi py p.2 with
        | some i, some j => some (i * py + j) | _, _ => none) (l := points) hvol (within := within)
        (inBox := fun idx p => decide (InBin xlo xhi bx (idx.getD 0 0) p.1 ∧ InBin ylo yhi py (idx.getD 1 0) p.2)) density
        (ne := !(vx.denote mx).toList.isEmpty) ?_ ?_ ?_ hd
    · rw [hs]
      exact ⟨_, rfl, key.1, key.2⟩
    · rw [hp]
      cases hA : (vx.denote mx).toList with
      | nil => simp
      | cons a A =>
        cases hB : (vy.denote my).toList with
        | nil => rw [hA, hB] at hlen; simp at hlen
        | cons b B => simp
    · intro p _
      rw [Bool.eq_iff_iff, hwi]
      cases h1 : binOf xlo xhi bx p.1 with
      | none =>
        rw [binOf_none_iff hxl hbx] at h1
        simp [h1]
      | some i' =>
        cases h2 : binOf ylo yhi py p.2 with
        | none =>
          rw [binOf_none_iff hyl hpy] at h2
          simp [h2]
        | some j' =>
          have b1 := (binOf_iff hxl hbx _ _).1 h1
          have b2 := (binOf_iff hyl hpy _ _).1 h2
          have g1 := b1.1
          have g2 := b2.1
          simp only [Option.any_some, decide_eq_true_eq, inBin_le hxl.le b1, inBin_le hyl.le b2, and_self, iff_true, size]
          exact decide_eq_true (by nlinarith)
    · intro p _ idx hi
      obtain ⟨i, j, rfl, hi', hj'⟩ := inShape_two hi
      rw [rank_two, hg p i j hi' hj']
      simp
  · intro c p _ _
    by_cases h1 : xlo ≤ p.1 ∧ p.1 ≤ xhi
    · by_cases h2 : ylo ≤ p.2 ∧ p.2 ≤ yhi
      · obtain ⟨i, hi, -⟩ := binIndex_spec hxl hbx h1.1 h1.2
        obtain ⟨j, hj, -⟩ := binIndex_spec hyl hpy h2.1 h2.2
        rw [if_pos ⟨h1.1, h1.2, h2.1, h2.2⟩, hi, hj]
        simp [binOf, h1, h2, hi, hj]
      · rw [if_neg (fun h => h2 ⟨h.2.2.1, h.2.2.2⟩), (binOf_none_iff hyl hpy _).2 h2]
        cases binOf xlo xhi bx p.1 <;> rfl
    · rw [if_neg (fun h => h1 ⟨h.1, h.2.1⟩), (binOf_none_iff hxl hbx _).2 h1]

example : histogram2d (fun a => [(1 : ℚ), 2, 3].getD (a / 8).toNat 0) (fun a => [(1 : ℚ), 5, 5].getD (a / 8).toNat 0)
    (View.fresh [3] 8) (View.fresh [3] 8) 2 2 none true =
    .ok (⟨[2, 2], [1 / 6, 0, 0, 1 / 3]⟩, [1, 2, 3], [1, 3, 5]) := by decide +kernel

/-! ### n dimensions -/

theorem inBox_inShape : ∀ {xs : List ℚ} {rs : List (ℚ × ℚ)} {bs idx : List Nat}, InBox xs rs bs idx → InShape bs idx
  | _ :: _, _ :: _, _ :: _, _ :: _, h => ⟨h.1.1, inBox_inShape h.2⟩
  | [], [], [], [], _ => trivial

theorem prod_pos {l : List ℚ} (h : ∀ x ∈ l, 0 < x) : 0 < l.prod := by
  induction l with
  | nil => simp
  | cons a l ih =>
    rw [List.prod_cons]
    exact mul_pos (h a (by simp)) (ih fun x hx => h x (by simp [hx]))

theorem sampleBins_spec : ∀ (xs : List ℚ) (rs : List (ℚ × ℚ)) (bs : List Nat), xs.length = bs.length →
    rs.length = bs.length → (∀ r ∈ rs, r.1 < r.2) → (∀ b ∈ bs, 0 < b) →
    ∃ r, sampleBins (xs.map some) rs bs = some r ∧ ∀ idx, r = some idx ↔ InBox xs rs bs idx
  | [], [], [], _, _, _, _ => ⟨some [], rfl, fun idx => by cases idx <;> simp [InBox]⟩
  | x :: xs, (lo, hi) :: rs, b :: bs, h1, h2, h3, h4 => by
    obtain ⟨r, hr, hi'⟩ := sampleBins_spec xs rs bs (by simpa using h1) (by simpa using h2)
      (fun r hr => h3 r (by simp [hr])) (fun b hb => h4 b (by simp [hb]))
    have hlt : lo < hi := h3 (lo, hi) (by simp)
    have hb : 0 < b := h4 b (by simp)
    rw [List.map_cons, sampleBins]
    by_cases hx : x < lo ∨ x > hi
    · refine ⟨none, by simp [hx], fun idx => ?_⟩
      simp only [reduceCtorEq, false_iff]
      intro h
      cases idx with
      | nil => exact h
      | cons i idx =>
        have := inBin_le hlt.le h.1
        rcases hx with hx | hx
        · linarith
        · exact absurd this.2 (not_le.2 hx)
    · have h1 : lo ≤ x := by by_contra hc; exact hx (Or.inl (not_le.1 hc))
      have h2 : x ≤ hi := by by_contra hc; exact hx (Or.inr (not_le.1 hc))
      obtain ⟨i, hi1, hi2⟩ := binIndex_spec hlt hb h1 h2
      simp only [decide_eq_true_eq, Bool.or_eq_true, hx, if_false, hi1, hr]
      cases r with
      | none =>
        refine ⟨none, rfl, fun idx => ?_⟩
        simp only [reduceCtorEq, false_iff]
        intro h
        cases idx with
        | nil => exact h
        | cons j idx => exact absurd ((hi' idx).2 h.2) (by simp)
      | some r =>
        refine ⟨some (i :: r), rfl, fun idx => ?_⟩
        cases idx with
        | nil => simp [InBox]
        | cons j idx =>
          have := hi' idx
          simp only [Option.some.injEq, List.cons.injEq, InBox] at this ⊢
          rw [this]
          constructor
          · rintro ⟨rfl, h⟩; exact ⟨hi2, h⟩
          · rintro ⟨h, h'⟩; exact ⟨inBin_unique hlt hi2 h, h'⟩
  | [], _ :: _, bs, h1, h2, _, _ => by simp at h1 h2; omega
  | _ :: _, [], bs, h1, h2, _, _ => by simp at h1 h2; omega

theorem colRange_some {col : List ℚ} (h : col ≠ []) : colRange (col.map some) = histRange col none := by
  unfold colRange histRange
  have : (col.map some).filterMap id = col := by simp [List.filterMap_map]
  rw [this]
  cases col with
  | nil => exact absurd rfl h
  | cons => rfl

/-- The bins of an n-dimensional histogram: one number for all dimensions or one per dimension. -/
def BinsOf (given : List Nat) (d : Nat) (bins : List Nat) : Prop :=
  bins.length = d ∧ (given = bins ∨ ∃ b, given = [b] ∧ bins = List.replicate d b)

theorem histogramddOf_spec (rows : List (List ℚ)) (d : Nat) (hrows : ∀ row ∈ rows, row.length = d) {given bins : List Nat}
    (hbins : BinsOf given d bins) (hpos : ∀ b ∈ bins, 0 < b) {range : Option (List (ℚ × ℚ))}
    (hlen : ∀ r, range = some r → d ≤ r.length) (hne : range = none → rows ≠ [])
    {rs : List (ℚ × ℚ)} (hrs : rs.length = d)
    (hr : ∀ k, k < d → HistRange (rows.map fun row => row.getD k 0) (range.map fun r => r.getD k (0, 0))
      (rs.getD k (0, 0)).1 (rs.getD k (0, 0)).2) (hlt : ∀ r ∈ rs, r.1 < r.2) (density : Bool)
    (within : List ℚ → Bool) (hwi : ∀ row ∈ rows, within row = true ↔ ∃ idx, InBox row rs bins idx)
    (hd : density = true → ∃ row ∈ rows, within row = true) (volume : ℚ)
    (hvol : volume = ((List.range d).map fun k => ((rs.getD k (0, 0)).2 - (rs.getD k (0, 0)).1) / bins.getD k 0).prod) :
    ∃ h, histogramddOf (rows.map fun row => row.map some) d given range density =
        .ok (h, (List.range d).map fun k => (List.range (bins.getD k 0 + 1)).map fun i =>
          edge (rs.getD k (0, 0)).1 (rs.getD k (0, 0)).2 (bins.getD k 0) i) ∧
      h.Is ⟨bins, fun idx => boxValue density rows within volume fun row => InBox row rs bins idx⟩ ∧
      (density = true → h.data.sum * volume = 1) := by
  obtain ⟨hbl, hgiven⟩ := hbins
  have e1 : (if given.length = 1 then List.replicate d (given.getD 0 0) else given) = bins := by
    rcases hgiven with rfl | ⟨b, rfl, rfl⟩
    · split
      · next h1 =>
        obtain ⟨b, rfl⟩ := List.length_eq_one_iff.1 h1
        simp at hbl; subst hbl; rfl
      · rfl
    · simp
  have e2 : ddRanges (rows.map fun row => row.map some) d range = rs := by
    unfold ddRanges
    apply List.ext_getElem? fun k => ?_
    by_cases hk : k < d
    · rw [List.getElem?_map, List.getElem?_range hk, Option.map_some,
        List.getElem?_eq_getElem (by omega), Option.some.injEq, ← List.getD_eq_getElem _ (0, 0) (by omega)]
      have := hr k hk
      cases range with
      | some r => exact this
      | none =>
        dsimp only
        rw [List.map_map]
        have ec : (rows.map ((fun row : List (Option ℚ) => row.getD k none) ∘ fun row => row.map some)) =
            (rows.map fun row => row.getD k 0).map some := by
          rw [List.map_map]
          apply List.map_congr_left
          intro row hrow
          have := hrows row hrow
          simp [List.getD_eq_getElem _ _ (show k < row.length by omega), this, hk]
        rw [ec, colRange_some (by simpa using hne rfl)]
        exact histRange_unique this
    · rw [List.getElem?_eq_none (by simp; omega), List.getElem?_eq_none (by omega)]
  have e3 : ddShort range d = false := by
    unfold ddShort
    cases range with
    | none => rfl
    | some r => have := hlen r rfl; simpa using this
  have hvpos : 0 < volume := by
    rw [hvol]
    apply prod_pos
    intro w hw
    obtain ⟨k, hk, rfl⟩ := List.mem_map.1 hw
    rw [List.mem_range] at hk
    have h1 : rs.getD k (0, 0) ∈ rs := by rw [List.getD_eq_getElem _ _ (by omega)]; exact List.getElem_mem _
    have h2 : bins.getD k 0 ∈ bins := by rw [List.getD_eq_getElem _ _ (by omega)]; exact List.getElem_mem _
    have h3 := hlt _ h1
    have h4 : (0 : ℚ) < bins.getD k 0 := by exact_mod_cast hpos _ h2
    exact div_pos (by linarith) h4
  have hsb : ∀ row ∈ rows, ∃ r, sampleBins (row.map some) rs bins = some r ∧ ∀ idx, r = some idx ↔ InBox row rs bins idx :=
    fun row hrow => sampleBins_spec row rs bins (by rw [hrows row hrow, hbl]) (by omega) hlt hpos
  unfold histogramddOf
  dsimp only
  rw [e1, e2, e3, if_neg (by simpa using hbl)]
  simp only [Bool.false_eq_true, if_false]
  have ew : ((List.range d).map fun k => ((List.range d).map fun k =>
      ((rs.getD k (0, 0)).2 - (rs.getD k (0, 0)).1) / (bins.getD k 0 : ℚ)).getD k 0) =
      (List.range d).map fun k => ((rs.getD k (0, 0)).2 - (rs.getD k (0, 0)).1) / (bins.getD k 0 : ℚ) := by
    apply List.map_congr_left
    intro k hk
    rw [List.mem_range] at hk
    simp [List.getD_eq_getElem?_getD, hk]
  rw [count_fold_zero (fun row : List (Option ℚ) => match sampleBins row rs bins with
    | some (some idx) => some (rank bins idx) | _ => none) _ (Rumpy.sizeOf bins) _ ?_]
  · dsimp only
    rw [sizeOf_eq, ← hvol]
    have ecount : ∀ i, ((rows.map fun row => row.map some).countP fun row => decide ((match sampleBins row rs bins with
        | some (some idx) => some (rank bins idx) | _ => none) = some i)) =
        rows.countP fun row => decide ((match sampleBins (row.map some) rs bins with
        | some (some idx) => some (rank bins idx) | _ => none) = some i) := by
      intro i; rw [List.countP_map]; rfl
    simp only [ecount]
    have key := density_is (s := bins) (g := fun row : List ℚ => match sampleBins (row.map some) rs bins with
        | some (some idx) => some (rank bins idx) | _ => none) (l := rows) hvpos (within := within)
        (inBox := fun idx row => decide (InBox row rs bins idx)) density
        (ne := !(rows.map fun row => row.map some).isEmpty) (by cases rows <;> rfl) ?_ ?_ hd
    · refine ⟨_, ?_, key.1, key.2⟩
      congr 2
      apply List.map_congr_left
      intro k hk
      apply List.map_congr_left
      intro i _
      rw [List.mem_range] at hk
      unfold edge
      simp [List.getD_eq_getElem?_getD, hk]
    · intro row hrow
      obtain ⟨r, h1, h2⟩ := hsb row hrow
      rw [h1, Bool.eq_iff_iff, hwi row hrow]
      cases r with
      | none =>
        simp only [Option.any_none, Bool.false_eq_true, false_iff, not_exists]
        intro idx h
        exact absurd ((h2 idx).2 h) (by simp)
      | some idx =>
        have hin := (h2 idx).1 rfl
        simp only [Option.any_some, decide_eq_true_eq]
        exact iff_of_true (rank_lt (inBox_inShape hin)) ⟨idx, hin⟩
    · intro row hrow idx hi
      obtain ⟨r, h1, h2⟩ := hsb row hrow
      rw [h1, decide_eq_true_eq, ← h2]
      cases r with
      | none => simp
      | some idx' =>
        simp only [Option.some.injEq]
        exact ⟨fun h => rank_inj (inBox_inShape ((h2 idx').1 rfl)) hi h, fun h => by rw [h]⟩
  · intro c x hx _
    obtain ⟨row, hrow, rfl⟩ := List.mem_map.1 hx
    obtain ⟨r, h1, h2⟩ := hsb row hrow
    rw [h1]
    cases r with
    | none => rfl
    | some idx =>
      have hs := inBox_inShape ((h2 idx).1 rfl)
      dsimp only
      rw [← linearIndex_eq hs.length_eq]
      rfl

/-- C49 (partial): for ranges with `lo < hi` and at least one bin in each dimension, an entry of `histogramdd` is the
number of rows of the sample in its box; with `density` it is divided by the number of rows in all boxes times the
volume of a box, and the result integrates to one.  (Missing: constant columns and NaN.) -/
theorem C49_histogramdd_partial {v : View} (mem : Int → ℚ) {n d : Nat} (hs : v.shape = [n, d])
    {given bins : List Nat} (hbins : BinsOf given d bins) (hpos : ∀ b ∈ bins, 0 < b) {range : Option (List (ℚ × ℚ))}
    (hlen : ∀ r, range = some r → d ≤ r.length) (rows : List (List ℚ))
    (hrows : rows = (List.range n).map fun i => (List.range d).map fun k => (v.denote mem).get [i, k])
    {rs : List (ℚ × ℚ)} (hrs : rs.length = d)
    (hr : ∀ k, k < d → HistRange (rows.map fun row => row.getD k 0) (range.map fun r => r.getD k (0, 0))
      (rs.getD k (0, 0)).1 (rs.getD k (0, 0)).2) (hlt : ∀ r ∈ rs, r.1 < r.2) (density : Bool)
    (within : List ℚ → Bool) (hwi : ∀ row ∈ rows, within row = true ↔ ∃ idx, InBox row rs bins idx)
    (hd : density = true → ∃ row ∈ rows, within row = true) (volume : ℚ)
    (hvol : volume = ((List.range d).map fun k => ((rs.getD k (0, 0)).2 - (rs.getD k (0, 0)).1) / bins.getD k 0).prod) :
    ∃ h, histogramdd (fun a => some (mem a)) v given range density =
        .ok (h, (List.range d).map fun k => (List.range (bins.getD k 0 + 1)).map fun i =>
          edge (rs.getD k (0, 0)).1 (rs.getD k (0, 0)).2 (bins.getD k 0) i) ∧
      h.Is ⟨bins, fun idx => boxValue density rows within volume fun row => InBox row rs bins idx⟩ ∧
      (density = true → h.data.sum * volume = 1) := by
  have hrl : ∀ row ∈ rows, row.length = d := by
    intro row h
    rw [hrows] at h
    obtain ⟨i, -, rfl⟩ := List.mem_map.1 h
    simp
  unfold histogramdd
  rw [hs]
  simp only [List.length_cons, List.length_nil, if_true, List.getD_cons_succ, List.getD_cons_zero, List.isEmpty_cons,
    Bool.false_eq_true, if_false]
  by_cases hn : n = 0
  · subst hn
    have h0 : rows = [] := by rw [hrows]; rfl
    subst h0
    rw [if_pos rfl]
    refine histogramddOf_spec [] d hrl hbins hpos (range := some (range.getD (List.replicate d (0, 1)))) ?_ (by simp) hrs
      ?_ hlt density within hwi hd volume hvol
    · intro r h
      cases range with
      | none => cases h; simp
      | some r' => cases h; exact hlen _ rfl
    · intro k hk
      have := hr k hk
      cases range with
      | some r => exact this
      | none =>
        rcases this with ⟨-, h1, h2⟩ | ⟨h1, -⟩
        · rw [h1, h2]
          show (List.replicate d ((0 : ℚ), (1 : ℚ))).getD k (0, 0) = (0, 1)
          rw [List.getD_eq_getElem _ _ (by simpa using hk), List.getElem_replicate]
        · exact absurd h1 (by simp)
  · rw [if_neg hn]
    have e : sampleRows (fun a => some (mem a)) v = rows.map fun row => row.map some := by
      unfold sampleRows
      rw [hs, hrows]
      simp only [List.length_cons, List.length_nil, if_true, List.getD_cons_succ, List.getD_cons_zero]
      rw [List.map_map]
      apply List.map_congr_left
      intro i _
      rw [if_neg (by omega)]
      simp [Function.comp_def, View.denote]
    rw [e]
    refine histogramddOf_spec rows d hrl hbins hpos hlen (fun _ => ?_) hrs hr hlt density within hwi hd volume hvol
    rw [hrows]
    intro h
    exact hn (by simpa using congrArg List.length h)

example : histogramdd (fun a => some ([(1 : ℚ), 1, 2, 5, 3, 5].getD (a / 8).toNat 0)) (View.fresh [3, 2] 8) [2] none false =
    .ok (⟨[2, 2], [1, 0, 0, 2]⟩, [[1, 2, 3], [1, 3, 5]]) := by decide +kernel

/-- C49 fails for NaN: it is not counted by numpy (which refuses an automatic range) nor by `histogram`, but
`histogramdd` counts it in the first bin. -/
theorem C49_histogramdd_counterexample :
    histogramdd (fun _ => none) (View.fresh [1, 1] 8) [2] (some [(0, 1)]) false = .ok (⟨[2], [1, 0]⟩, [[0, 1 / 2, 1]]) := by
  decide +kernel

/-- C49: the number of bins must be one or match the dimensions. -/
theorem C49_histogramdd_refused_iff (mem : Int → Option ℚ) {v : View} {n d : Nat} (hs : v.shape = [n, d]) (given : List Nat)
    (density : Bool) : histogramdd mem v given none density = .error ↔ given.length ≠ 1 ∧ given.length ≠ d := by
  have key : ∀ samples range, histogramddOf samples d given range density = .error ↔ given.length ≠ 1 ∧ given.length ≠ d := by
    intro samples range
    unfold histogramddOf
    dsimp only
    by_cases h1 : given.length = 1
    · rw [if_pos h1, if_neg (by simp)]
      simp only [h1, ne_eq, not_true, false_and, iff_false]
      split
      · simp
      · split <;> simp
    · rw [if_neg h1]
      by_cases h2 : given.length = d
      · rw [if_neg (by simpa using h2)]
        simp only [h2, ne_eq, not_true, and_false, iff_false]
        split
        · simp
        · split <;> simp
      · rw [if_pos h2]; simp [h1, h2]
  unfold histogramdd
  rw [hs]
  simp only [List.length_cons, List.length_nil, if_true, List.getD_cons_succ, List.getD_cons_zero, List.isEmpty_cons,
    Bool.false_eq_true, if_false]
  split <;> exact key _ _

end Props
