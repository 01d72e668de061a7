import Verif.Lemmas.Char
import Verif.Props.Strings
/-!
# C54: the string functions give what the Python string methods give

`a.Holds t` (Model/Strings) says that the string array `a` holds the text `t.get idx` at every index,
so it also says that the text is not cut.  The theorems for functions returning strings conclude with
`Holds` for the result.
-/

namespace Props
open Spec Rumpy

theorem noNul_of_holds {a : Strs} {t : Nd (List Char)} (h : a.Holds t) {idx : List Nat} (hi : InShape t.shape idx) :
    NoNul (t.get idx) := zero_notMem_codes.1 (h.2.2.2 idx hi).2.1

theorem length_of_holds {a : Strs} {t : Nd (List Char)} (h : a.Holds t) {idx : List Nat} (hi : InShape t.shape idx) :
    (t.get idx).length ≤ a.width := by simpa using (h.2.2.2 idx hi).1

/-- A table computed element by element. -/
theorem table_of {a : Strs} {t : Nd (List Char)} (hwf : a.view.WF) (h : a.Holds t) {β : Type} (f : (Nat → Nat) → β)
    (zero : β) (P : List Char → β → Prop)
    (hP : ∀ src s, CellOf src a.width (s.map Char.toNat) → P s (f src)) :
    ∃ r : Nd β, (tableOf a f zero).Is r ∧ r.shape = t.shape ∧ ∀ idx, InShape t.shape idx → P (t.get idx) (r.get idx) :=
  ⟨_, tableOf_is hwf h.2.1 f zero, h.2.2.1, fun idx hi => hP _ _ (h.2.2.2 idx hi)⟩

/-! ### Searching -/

/-- C54.  `find` gives, for each element, the lowest position of the substring, or -1. -/
theorem C54_find (a : Strs) (t : Nd (List Char)) (hwf : a.view.WF) (h : a.Holds t) (sub : List Char) :
    ∃ r : Nd Int, (charFind a sub).Is r ∧ r.shape = t.shape ∧
      ∀ idx, InShape t.shape idx → IsFind (t.get idx) sub (r.get idx) := by
  unfold charFind
  split
  · rename_i h0
    have : sub = [] := List.length_eq_zero_iff.1 h0
    subst this
    refine ⟨⟨t.shape, fun _ => 0⟩, ⟨h.2.2.1, ?_⟩, rfl, fun idx hi => Or.inl ⟨0, rfl, occursAt_nil _ (by omega), by intro k hk; omega⟩⟩
    simp [Nd.toList, sizeOf_eq, h.2.2.1, length_indices]
  · exact table_of hwf h _ _ (fun s x => IsFind s sub x) fun src s hc => findCell_spec hc sub

/-- C54.  `rfind` gives the highest position. -/
theorem C54_rfind (a : Strs) (t : Nd (List Char)) (hwf : a.view.WF) (h : a.Holds t) (sub : List Char) :
    ∃ r : Nd Int, (charRfind a sub).Is r ∧ r.shape = t.shape ∧
      ∀ idx, InShape t.shape idx → IsRfind (t.get idx) sub (r.get idx) := by
  unfold charRfind
  split
  · rename_i h0
    have : sub = [] := List.length_eq_zero_iff.1 h0
    subst this
    refine table_of hwf h _ _ (fun s x => IsRfind s [] x) fun src s hc => ?_
    simp only [hc.strlen]
    exact Or.inl ⟨s.length, rfl, occursAt_nil _ (Nat.le_refl _), fun k hk ho => by have := ho.1; omega⟩
  · exact table_of hwf h _ _ (fun s x => IsRfind s sub x) fun src s hc => rfindCell_spec hc sub

theorem isFind_neg {s sub : List Char} {x : Int} (h : IsFind s sub x) : x = -1 ↔ ∀ k, ¬ OccursAt sub s k := by
  rcases h with ⟨i, rfl, ho, _⟩ | ⟨rfl, hn⟩
  · constructor
    · intro hx; omega
    · intro hx; exact absurd ho (hx i)
  · exact ⟨fun _ => hn, fun _ => rfl⟩

theorem isRfind_neg {s sub : List Char} {x : Int} (h : IsRfind s sub x) : x = -1 ↔ ∀ k, ¬ OccursAt sub s k := by
  rcases h with ⟨i, rfl, ho, _⟩ | ⟨rfl, hn⟩
  · constructor
    · intro hx; omega
    · intro hx; exact absurd ho (hx i)
  · exact ⟨fun _ => hn, fun _ => rfl⟩

theorem any_iff_is {r : Arr Int} {nd : Nd Int} (h : r.Is nd) :
    (r.data.any fun x => x == -1) = true ↔ ∃ idx, InShape nd.shape idx ∧ nd.get idx = -1 := by
  rw [h.2, List.any_eq_true]
  unfold Nd.toList
  constructor
  · rintro ⟨x, hx, hx'⟩
    obtain ⟨idx, hi, rfl⟩ := List.mem_map.1 hx
    exact ⟨idx, mem_indices.1 hi, by simpa using hx'⟩
  · rintro ⟨idx, hi, hx⟩
    exact ⟨_, List.mem_map.2 ⟨idx, mem_indices.2 hi, rfl⟩, by simpa using hx⟩

/-- C54.  `index` raises exactly when some element does not contain the substring, and else gives
the lowest positions. -/
theorem C54_index (a : Strs) (t : Nd (List Char)) (hwf : a.view.WF) (h : a.Holds t) (sub : List Char) :
    (charIndex a sub = none ↔ ∃ idx, InShape t.shape idx ∧ ∀ k, ¬ OccursAt sub (t.get idx) k) ∧
      ∀ arr, charIndex a sub = some arr → ∃ r : Nd Int, arr.Is r ∧ r.shape = t.shape ∧
        ∀ idx, InShape t.shape idx → IsFind (t.get idx) sub (r.get idx) := by
  obtain ⟨r, hr, hs, hf⟩ := C54_find a t hwf h sub
  unfold charIndex
  dsimp only
  constructor
  · have hiff : ((charFind a sub).data.any fun x => x == -1) = true ↔
        ∃ idx, InShape t.shape idx ∧ ∀ k, ¬ OccursAt sub (t.get idx) k := by
      rw [any_iff_is hr, hs]
      exact ⟨fun ⟨idx, hi, hx⟩ => ⟨idx, hi, (isFind_neg (hf idx hi)).1 hx⟩,
        fun ⟨idx, hi, hx⟩ => ⟨idx, hi, (isFind_neg (hf idx hi)).2 hx⟩⟩
    rw [← hiff]
    split <;> simp_all
  · intro arr harr
    split at harr
    · simp at harr
    · obtain rfl := Option.some.inj harr
      exact ⟨r, hr, hs, hf⟩

/-- C54.  The same for `rindex`. -/
theorem C54_rindex (a : Strs) (t : Nd (List Char)) (hwf : a.view.WF) (h : a.Holds t) (sub : List Char) :
    (charRindex a sub = none ↔ ∃ idx, InShape t.shape idx ∧ ∀ k, ¬ OccursAt sub (t.get idx) k) ∧
      ∀ arr, charRindex a sub = some arr → ∃ r : Nd Int, arr.Is r ∧ r.shape = t.shape ∧
        ∀ idx, InShape t.shape idx → IsRfind (t.get idx) sub (r.get idx) := by
  obtain ⟨r, hr, hs, hf⟩ := C54_rfind a t hwf h sub
  unfold charRindex
  dsimp only
  constructor
  · have hiff : ((charRfind a sub).data.any fun x => x == -1) = true ↔
        ∃ idx, InShape t.shape idx ∧ ∀ k, ¬ OccursAt sub (t.get idx) k := by
      rw [any_iff_is hr, hs]
      exact ⟨fun ⟨idx, hi, hx⟩ => ⟨idx, hi, (isRfind_neg (hf idx hi)).1 hx⟩,
        fun ⟨idx, hi, hx⟩ => ⟨idx, hi, (isRfind_neg (hf idx hi)).2 hx⟩⟩
    rw [← hiff]
    split <;> simp_all
  · intro arr harr
    split at harr
    · simp at harr
    · obtain rfl := Option.some.inj harr
      exact ⟨r, hr, hs, hf⟩

/-- C54.  `count` gives the number of non-overlapping occurrences. -/
theorem C54_count (a : Strs) (t : Nd (List Char)) (hwf : a.view.WF) (h : a.Holds t) (sub : List Char) :
    ∃ r : Nd Int, (charCount a sub).Is r ∧ r.shape = t.shape ∧
      ∀ idx, InShape t.shape idx → IsCount (t.get idx) sub (r.get idx) := by
  unfold charCount
  split
  · rename_i h0
    have : sub = [] := List.length_eq_zero_iff.1 h0
    subst this
    refine table_of hwf h _ _ (fun s x => IsCount s [] x) fun src s hc => ?_
    simp only [hc.strlen]
    exact count_empty s
  · rename_i h0
    exact table_of hwf h _ _ (fun s x => IsCount s sub x) fun src s hc => countCell_spec hc (by rintro rfl; exact h0 rfl)

/-- C54.  `str_len` gives the length. -/
theorem C54_str_len (a : Strs) (t : Nd (List Char)) (hwf : a.view.WF) (h : a.Holds t) :
    (charStrLen a).Is ⟨t.shape, fun idx => ((t.get idx).length : Int)⟩ := by
  obtain ⟨r, hr, hs, hf⟩ := table_of hwf h (fun src => (strlen src a.width : Int)) 0 (fun s x => x = s.length)
    fun src s hc => by simp only [hc.strlen]
  exact hr.congr ⟨hs, fun idx hi => hf idx (hs ▸ hi)⟩

/-- C54.  `startswith` tells whether the element begins with the prefix, if the prefix is no longer
than the width of the array (or the element shorter than it) and has no NUL. -/
theorem C54_startswith_partial (a : Strs) (t : Nd (List Char)) (hwf : a.view.WF) (h : a.Holds t) (pre : List Char)
    (hp : NoNul pre) (hw : pre.length ≤ a.width ∨ ∀ idx, InShape t.shape idx → (t.get idx).length < a.width) :
    (charStartswith a pre).Is ⟨t.shape, fun idx => decide (pre <+: t.get idx)⟩ := by
  have := tableOf_is hwf h.2.1 (fun src => matchesAt src 0 (codes pre)) false
  refine Arr.Is.congr this ⟨h.2.2.1, fun idx hi => ?_⟩
  simp only at hi
  have hi : InShape t.shape idx := h.2.2.1 ▸ hi
  simp only
  rw [Bool.eq_iff_iff, decide_eq_true_eq]
  refine startswith_spec (h.2.2.2 idx hi) hp ?_
  rcases hw with hw | hw
  · exact Or.inr hw
  · exact Or.inl (hw idx hi)

/-- C54 fails for a prefix longer than the width: the comparison runs on into the next element, so
`'ab'` is said to begin with `'abcd'` in an array of `'ab'`, `'cd'`. -/
theorem C54_startswith_counterexample :
    let o := fromVec 4 Char.toNat [['a', 'b'], ['c', 'd']] 2
    (charStartswith o.strs ['a', 'b', 'c', 'd']).data = [true, false] := by decide +kernel

/-- C54.  `endswith` tells whether the element ends with the suffix. -/
theorem C54_endswith (a : Strs) (t : Nd (List Char)) (hwf : a.view.WF) (h : a.Holds t) (suf : List Char) :
    (charEndswith a suf).Is ⟨t.shape, fun idx => decide (suf <:+ t.get idx)⟩ := by
  have := tableOf_is hwf h.2.1 (endswithCell (codes suf) a.width) false
  refine Arr.Is.congr this ⟨h.2.2.1, fun idx hi => ?_⟩
  simp only at hi
  have hi : InShape t.shape idx := h.2.2.1 ▸ hi
  simp only
  rw [Bool.eq_iff_iff, decide_eq_true_eq]
  exact endswithCell_spec (h.2.2.2 idx hi) suf

/-- The functions from Python ignore `start` and `end`: `'hi'` is found at 0 although the search is
to begin at 1. -/
theorem C54_start_counterexample :
    (pyFind backwards ['h'] (some 1) none).data = [-1, 0] ∧ ¬ OccursAt ['h'] (['h', 'i'].drop 1) 0 := by
  constructor
  · decide +kernel
  · rintro ⟨_, r, hr⟩
    simp at hr

example : ∃ r : Nd Int, (charFind backwards ['i']).Is r ∧ r.shape = backwardsTexts.shape ∧
    ∀ idx, InShape backwardsTexts.shape idx → IsFind (backwardsTexts.get idx) ['i'] (r.get idx) :=
  C54_find _ _ backwards_wf backwards_holds _

example : (charFind backwards ['i']).data = [-1, 1] := by decide +kernel
example : (charRfind backwards []).data = [2, 2] := by decide +kernel
example : (charCount (fromVec 4 Char.toNat [['a', 'a', 'a', 'a', 'a']] 5).strs ['a', 'a']).data = [2] := by decide +kernel
example : charIndex backwards ['i'] = none := by decide +kernel
example : (charStartswith backwards ['h']).data = [false, true] := by decide +kernel
example : (charStartswith backwards ['h']).Is ⟨[2], fun idx => decide (['h'] <+: backwardsTexts.get idx)⟩ :=
  C54_startswith_partial _ _ backwards_wf backwards_holds _ (by decide) (Or.inl (by decide))
example : (charEndswith backwards ['h', 'i']).data = [false, true] := by decide +kernel

/-! ### Results that are strings -/

/-- Strings computed element by element. -/
theorem strings_of {a : Strs} {t : Nd (List Char)} (hwf : a.view.WF) (h : a.Holds t) {w : Nat} {f : (Nat → Nat) → List Nat}
    (P : List Char → List Char → Prop)
    (hP : ∀ idx, InShape t.shape idx → ∃ r, f (a.cell (a.view.addr idx)) = r.map Char.toNat ∧ P (t.get idx) r ∧ r.length ≤ w ∧ NoNul r) :
    ∃ r : Nd (List Char), (stringsOf a w f).strs.Holds r ∧ r.shape = t.shape ∧
      ∀ idx, InShape t.shape idx → P (t.get idx) (r.get idx) := by
  classical
  have hs := h.2.2.1
  have hP' : ∀ idx, ∃ r, InShape t.shape idx → f (a.cell (a.view.addr idx)) = r.map Char.toNat ∧ P (t.get idx) r ∧ r.length ≤ w ∧ NoNul r := by
    intro idx
    by_cases hi : InShape t.shape idx
    · obtain ⟨r, hr⟩ := hP idx hi
      exact ⟨r, fun _ => hr⟩
    · exact ⟨[], fun hx => absurd hx hi⟩
  choose g hg using hP'
  refine ⟨⟨a.view.shape, g⟩, stringsOf_holds hwf h.2.1 ?_ ?_, hs, fun idx hi => (hg idx hi).2.1⟩
  · intro idx hi
    rw [hs] at hi
    exact (hg idx hi).1
  · intro idx hi
    rw [hs] at hi
    exact (hg idx hi).2.2

/-- C54.  `partition` gives, along a new last axis of length 3, the text before the first
separator, the separator, and the text after it; an empty separator is an error. -/
theorem C54_partition (a : Strs) (t : Nd (List Char)) (hwf : a.view.WF) (h : a.Holds t) (sep : List Char) :
    (charPartition a sep = none ↔ sep = []) ∧
      ∀ o, charPartition a sep = some o → ∃ r : Nd (List Char), o.strs.Holds r ∧ r.shape = t.shape ++ [3] ∧
        ∀ idx, InShape t.shape idx →
          IsPartition (t.get idx) sep (r.get (idx ++ [0])) (r.get (idx ++ [1])) (r.get (idx ++ [2])) := by
  classical
  have hs := h.2.2.1
  unfold charPartition
  constructor
  · split <;> simp_all
  · intro o ho
    split at ho
    · simp at ho
    · rename_i hne
      obtain rfl := Option.some.inj ho
      have hP : ∀ idx, ∃ xyz : List Char × List Char × List Char, InShape t.shape idx →
          partitionCell (codes sep) a.width (a.cell (a.view.addr idx)) =
            (xyz.1.map Char.toNat, xyz.2.1.map Char.toNat, xyz.2.2.map Char.toNat) ∧
          IsPartition (t.get idx) sep xyz.1 xyz.2.1 xyz.2.2 := by
        intro idx
        by_cases hi : InShape t.shape idx
        · obtain ⟨x, y, z, h1, h2⟩ := partitionCell_spec (h.2.2.2 idx hi) sep
          exact ⟨(x, y, z), fun _ => ⟨h1, h2⟩⟩
        · exact ⟨([], [], []), fun hx => absurd hx hi⟩
      choose g hg using hP
      have hfit : ∀ idx, InShape a.view.shape idx →
          ((g idx).1.length ≤ a.width ∧ NoNul (g idx).1) ∧ ((g idx).2.1.length ≤ a.width ∧ NoNul (g idx).2.1) ∧
          ((g idx).2.2.length ≤ a.width ∧ NoNul (g idx).2.2) := by
        intro idx hi
        rw [hs] at hi
        have hn := noNul_of_holds h hi
        have hl := length_of_holds h hi
        rcases (hg idx hi).2 with ⟨h1, h2, _⟩ | ⟨_, h1, h2, h3⟩
        · rw [h1] at hn hl
          have hn1 := noNul_of_append hn
          have hn2 := noNul_of_append hn1.1
          simp only [List.length_append] at hl
          rw [h2]
          exact ⟨⟨by omega, hn2.1⟩, ⟨by omega, hn2.2⟩, ⟨by omega, hn1.2⟩⟩
        · rw [h1, h2, h3]
          exact ⟨⟨hl, hn⟩, ⟨by simp, by simp [NoNul]⟩, ⟨by simp, by simp [NoNul]⟩⟩
      refine ⟨_, partitionOf_holds hwf h.2.1 (x := fun i => (g i).1) (y := fun i => (g i).2.1) (z := fun i => (g i).2.2)
        (fun idx hi => (hg idx (hs ▸ hi)).1) (fun idx hi => (hfit idx hi).1) (fun idx hi => (hfit idx hi).2.1)
        (fun idx hi => (hfit idx hi).2.2), by simp [hs], fun idx hi => ?_⟩
      simpa using (hg idx hi).2

/-- C54.  `rpartition` divides at the last separator. -/
theorem C54_rpartition (a : Strs) (t : Nd (List Char)) (hwf : a.view.WF) (h : a.Holds t) (sep : List Char) :
    (charRpartition a sep = none ↔ sep = []) ∧
      ∀ o, charRpartition a sep = some o → ∃ r : Nd (List Char), o.strs.Holds r ∧ r.shape = t.shape ++ [3] ∧
        ∀ idx, InShape t.shape idx →
          IsRpartition (t.get idx) sep (r.get (idx ++ [0])) (r.get (idx ++ [1])) (r.get (idx ++ [2])) := by
  classical
  have hs := h.2.2.1
  unfold charRpartition
  constructor
  · split <;> simp_all
  · intro o ho
    split at ho
    · simp at ho
    · rename_i hne
      obtain rfl := Option.some.inj ho
      have hP : ∀ idx, ∃ xyz : List Char × List Char × List Char, InShape t.shape idx →
          rpartitionCell (codes sep) a.width (a.cell (a.view.addr idx)) =
            (xyz.1.map Char.toNat, xyz.2.1.map Char.toNat, xyz.2.2.map Char.toNat) ∧
          IsRpartition (t.get idx) sep xyz.1 xyz.2.1 xyz.2.2 := by
        intro idx
        by_cases hi : InShape t.shape idx
        · obtain ⟨x, y, z, h1, h2⟩ := rpartitionCell_spec (h.2.2.2 idx hi) sep
          exact ⟨(x, y, z), fun _ => ⟨h1, h2⟩⟩
        · exact ⟨([], [], []), fun hx => absurd hx hi⟩
      choose g hg using hP
      have hfit : ∀ idx, InShape a.view.shape idx →
          ((g idx).1.length ≤ a.width ∧ NoNul (g idx).1) ∧ ((g idx).2.1.length ≤ a.width ∧ NoNul (g idx).2.1) ∧
          ((g idx).2.2.length ≤ a.width ∧ NoNul (g idx).2.2) := by
        intro idx hi
        rw [hs] at hi
        have hn := noNul_of_holds h hi
        have hl := length_of_holds h hi
        rcases (hg idx hi).2 with ⟨h1, h2, _⟩ | ⟨_, h1, h2, h3⟩
        · rw [h1] at hn hl
          have hn1 := noNul_of_append hn
          have hn2 := noNul_of_append hn1.1
          simp only [List.length_append] at hl
          rw [h2]
          exact ⟨⟨by omega, hn2.1⟩, ⟨by omega, hn2.2⟩, ⟨by omega, hn1.2⟩⟩
        · rw [h1, h2, h3]
          exact ⟨⟨by simp, by simp [NoNul]⟩, ⟨by simp, by simp [NoNul]⟩, ⟨hl, hn⟩⟩
      refine ⟨_, partitionOf_holds hwf h.2.1 (x := fun i => (g i).1) (y := fun i => (g i).2.1) (z := fun i => (g i).2.2)
        (fun idx hi => (hg idx (hs ▸ hi)).1) (fun idx hi => (hfit idx hi).1) (fun idx hi => (hfit idx hi).2.1)
        (fun idx hi => (hfit idx hi).2.2), by simp [hs], fun idx hi => ?_⟩
      simpa using (hg idx hi).2

/-- C54.  `join` puts the separator between the characters of each element. -/
theorem C54_join (a : Strs) (t : Nd (List Char)) (hwf : a.view.WF) (h : a.Holds t) (sep : List Char) (hsep : NoNul sep) :
    (charJoin sep a).strs.Holds ⟨t.shape, fun idx => joinChars sep (t.get idx)⟩ := by
  have hs := h.2.2.1
  unfold charJoin
  split
  · rename_i h0
    rw [sizeOf_eq, hs] at h0
    have hno : ∀ idx, ¬ InShape t.shape idx := fun idx hi => by
      have := mem_indices.2 hi
      rw [indices_of_size_zero h0] at this
      simp at this
    exact ⟨rfl, rfl, hs, fun idx hi => absurd hi (hno idx)⟩
  · dsimp only
    have := stringsOf_holds (g := fun idx => joinChars sep (t.get idx)) (w := if a.width = 0 then 0 else a.width + (a.width - 1) * sep.length)
      (f := joinCell (codes sep) a.width) hwf h.2.1 (fun idx hi => joinCell_spec (h.2.2.2 idx (hs ▸ hi)) sep) (by
      intro idx hi
      have hi : InShape t.shape idx := hs ▸ hi
      refine ⟨?_, ?_⟩
      · rw [length_joinChars]
        have hl := length_of_holds h hi
        by_cases h0 : (t.get idx).length = 0
        · simp [h0]
        · rw [if_neg h0, if_neg (by omega)]
          have := Nat.mul_le_mul_right sep.length (show (t.get idx).length - 1 ≤ a.width - 1 by omega)
          omega
      · apply noNul_intercalate hsep
        intro p hp
        obtain ⟨c, hc, rfl⟩ := List.mem_map.1 hp
        intro hx
        rw [List.mem_singleton] at hx
        exact noNul_of_holds h hi (hx ▸ hc))
    rw [hs] at this
    exact this

/-- C54.  `replace` gives Python's `replace`, up to the limit, when what is replaced is not empty. -/
theorem C54_replace_partial (a : Strs) (t : Nd (List Char)) (hwf : a.view.WF) (h : a.Holds t) (old new : List Char)
    (limit : Option Nat) (hold : old ≠ []) (hnew : NoNul new) :
    ∃ r : Nd (List Char), (charReplace a old new limit).strs.Holds r ∧ r.shape = t.shape ∧
      ∀ idx, InShape t.shape idx → IsReplace (t.get idx) old new limit (r.get idx) := by
  have hs := h.2.2.1
  have hpos := List.length_pos_iff.2 hold
  unfold charReplace
  split
  · rename_i h0
    rw [sizeOf_eq, hs] at h0
    have hno : ∀ idx, ¬ InShape t.shape idx := fun idx hi => by
      have := mem_indices.2 hi
      rw [indices_of_size_zero h0] at this
      simp at this
    exact ⟨⟨t.shape, fun _ => []⟩, ⟨rfl, rfl, hs, fun idx hi => absurd hi (hno idx)⟩, rfl, fun idx hi => absurd hi (hno idx)⟩
  · rw [if_neg (by omega)]
    dsimp only
    refine strings_of hwf h (fun s r => IsReplace s old new limit r) fun idx hi => ?_
    have hc := h.2.2.2 idx hi
    rw [hc.strlen]
    obtain ⟨r, hr, hrep⟩ := replaceLoop_spec hc hold new limit ((t.get idx).length + 1) 0 0 (by omega) (by omega)
    have hrep : IsReplace (t.get idx) old new limit r := by
      have : limit.map (· - 0) = limit := by cases limit <;> simp
      rwa [this, List.drop_zero] at hrep
    refine ⟨r, hr, hrep, ?_, noNul_replace hrep (noNul_of_holds h hi) hnew⟩
    obtain ⟨k, e, hk, hlen⟩ := replace_length (src := a.cell (a.view.addr idx)) (old := codes old) (new := codes new)
      (len := (t.get idx).length) (by simpa [codes] using hpos) limit ((t.get idx).length + 1) 0 0 (by omega) (by omega)
    rw [hr, List.length_map] at hlen
    have hmem : a.cell (a.view.addr idx) ∈ a.sources := by
      rw [sources_eq hwf h.2.1]
      exact List.mem_map.2 ⟨idx, mem_indices.2 (hs.symm ▸ hi), rfl⟩
    have := (foldl_max_map_ge (fun src => strlen src a.width -
      replaceCount src (codes old) (strlen src a.width) limit (strlen src a.width + 1) 0 0 * old.length +
      replaceCount src (codes old) (strlen src a.width) limit (strlen src a.width + 1) 0 0 * new.length) a.sources 0).2 _ hmem
    simp only [hc.strlen, e, Nat.zero_add] at this
    have hl1 : (codes old).length = old.length := by simp [codes]
    have hl2 : (codes new).length = new.length := by simp [codes]
    rw [hl1, hl2, Nat.sub_zero] at hlen
    rw [hlen]
    exact Nat.le_trans this (Nat.le_max_right _ _)

/-- C54 fails for an empty `old`: `'hi'.replace('', '-')` is `'-h-i-'`, here it stays `'hi'`. -/
theorem C54_replace_empty_counterexample :
    (charReplace backwards [] ['-'] none).units = [111, 107, 104, 105] ∧
      replaceEmpty ['h', 'i'] ['-'] = ['-', 'h', '-', 'i', '-'] := by decide +kernel

/-- C54.  `strip` (mode 0), `lstrip` (1) and `rstrip` (2) take white space off, for texts without
the four separator characters U+001C to U+001F. -/
theorem C54_strip_partial (a : Strs) (t : Nd (List Char)) (hwf : a.view.WF) (h : a.Holds t) (mode : Nat)
    (hsep : ∀ idx, InShape t.shape idx → ∀ c ∈ t.get idx, ¬ (28 ≤ c.toNat ∧ c.toNat ≤ 31)) :
    ∃ r : Nd (List Char), (charStrip mode a).strs.Holds r ∧ r.shape = t.shape ∧
      ∀ idx, InShape t.shape idx → IsStrip (mode ≠ 2) (mode ≠ 1) (t.get idx) (r.get idx) := by
  unfold charStrip
  refine strings_of hwf h (fun s r => IsStrip (mode ≠ 2) (mode ≠ 1) s r) fun idx hi => ?_
  obtain ⟨r, hr, h1, h2, h3⟩ := stripCell_spec (h.2.2.2 idx hi) (hsep idx hi) (mode := mode)
  exact ⟨r, hr, h1, Nat.le_trans h2 (length_of_holds h hi), fun hn => noNul_of_holds h hi (h3 _ hn)⟩

/-- C54 fails for the separator characters: U+001F is white space for Python, but is not taken off. -/
theorem C54_strip_counterexample :
    (charStrip 0 (fromVec 4 Char.toNat [['\x1f', 'a']] 2).strs).units = [0x1f, 97] ∧ pySpace '\x1f' := by decide +kernel

/-- `strip` from Python ignores its argument. -/
theorem C54_strip_chars_counterexample :
    (pyStrip (fromVec 4 Char.toNat [['x', 'a', 'x']] 3).strs (some ['x'])).units = [120, 97, 120] := by decide +kernel

example : ∃ r : Nd (List Char), (charReplace backwards ['h'] ['o', 'h', 'o'] none).strs.Holds r ∧
    r.shape = backwardsTexts.shape ∧
    ∀ idx, InShape backwardsTexts.shape idx → IsReplace (backwardsTexts.get idx) ['h'] ['o', 'h', 'o'] none (r.get idx) :=
  C54_replace_partial _ _ backwards_wf backwards_holds _ _ _ (by decide) (by decide)

example : (charReplace backwards ['h'] ['o', 'h', 'o'] none).units = [111, 107, 0, 0, 111, 104, 111, 105] := by decide +kernel
example : (charPartition backwards ['k']).map StrOut.units = some [111, 0, 107, 0, 0, 0, 104, 105, 0, 0, 0, 0] := by decide +kernel
example : (charRpartition backwards ['k']).map StrOut.units = some [111, 0, 107, 0, 0, 0, 0, 0, 0, 0, 104, 105] := by decide +kernel
example : (charJoin ['-'] backwards).units = [111, 45, 107, 104, 45, 105] := by decide +kernel
example : (charStrip 0 (fromVec 4 Char.toNat [[' ', 'a', ' ', 'b', '\t']] 5).strs).units = [97, 32, 98, 0, 0] := by decide +kernel
example : ∃ r : Nd (List Char), (charStrip 0 backwards).strs.Holds r ∧ r.shape = backwardsTexts.shape ∧
    ∀ idx, InShape backwardsTexts.shape idx → IsStrip ((0 : Nat) ≠ 2) ((0 : Nat) ≠ 1) (backwardsTexts.get idx) (r.get idx) :=
  C54_strip_partial _ _ backwards_wf backwards_holds 0 (by
    intro idx hi
    match idx, hi with
    | [0], _ => decide
    | [1], _ => decide)

/-! ### Functions that read their operand as if it were contiguous -/

theorem noNul_replicate {n : Nat} {c : Char} (h : c ≠ nul) : NoNul (List.replicate n c) := by
  intro hx
  exact h (List.eq_of_mem_replicate hx).symm

/-- C54.  `ljust`, for C-contiguous arrays. -/
theorem C54_ljust_partial (a : Strs) (t : Nd (List Char)) (hwf : a.view.WF) (hc : a.view.cFlag = true) (h : a.Holds t)
    (width : Nat) (fill : Char) (hf : fill ≠ nul) :
    (charLjust a width fill).strs.Holds ⟨t.shape, fun idx => Spec.ljust (t.get idx) width fill⟩ := by
  have hop : (fun s : List Char => if s.length ≥ width then s else s ++ List.replicate (width - s.length) fill) =
      fun s => Spec.ljust s width fill := by
    funext s
    unfold Spec.ljust
    split
    · rw [show width - s.length = 0 by omega]; simp
    · rfl
  unfold charLjust
  rw [hop]
  exact applyUnary_holds hwf hc h fun s hs => noNul_append hs (noNul_replicate hf)

/-- C54.  `rjust`, for C-contiguous arrays. -/
theorem C54_rjust_partial (a : Strs) (t : Nd (List Char)) (hwf : a.view.WF) (hc : a.view.cFlag = true) (h : a.Holds t)
    (width : Nat) (fill : Char) (hf : fill ≠ nul) :
    (charRjust a width fill).strs.Holds ⟨t.shape, fun idx => Spec.rjust (t.get idx) width fill⟩ := by
  have hop : (fun s : List Char => if s.length ≥ width then s else List.replicate (width - s.length) fill ++ s) =
      fun s => Spec.rjust s width fill := by
    funext s
    unfold Spec.rjust
    split
    · rw [show width - s.length = 0 by omega]; simp
    · rfl
  unfold charRjust
  rw [hop]
  exact applyUnary_holds hwf hc h fun s hs => noNul_append (noNul_replicate hf) hs

/-- C54.  `zfill`, for C-contiguous arrays. -/
theorem C54_zfill_partial (a : Strs) (t : Nd (List Char)) (hwf : a.view.WF) (hc : a.view.cFlag = true) (h : a.Holds t)
    (width : Nat) : (charZfill a width).strs.Holds ⟨t.shape, fun idx => Spec.zfill (t.get idx) width⟩ := by
  have hop : (fun s : List Char => if s.length ≥ width then s else
      let (sign, rest) := if s.head? = some '-' ∨ s.head? = some '+' then (s.take 1, s.drop 1) else ([], s)
      sign ++ List.replicate (width - s.length) '0' ++ rest) = fun s => Spec.zfill s width := by
    funext s
    match s with
    | [] =>
      simp only [Spec.zfill, List.head?_nil]
      split
      · rename_i h0
        rw [show width - ([] : List Char).length = 0 by omega]; rfl
      · simp
    | c :: s =>
      by_cases h1 : c = '-'
      · subst h1
        simp only [Spec.zfill, List.head?_cons]
        split
        · rw [show width - ('-' :: s).length = 0 by omega]; rfl
        · simp
      · by_cases h2 : c = '+'
        · subst h2
          simp only [Spec.zfill, List.head?_cons]
          split
          · rw [show width - ('+' :: s).length = 0 by omega]; rfl
          · simp
        · have : Spec.zfill (c :: s) width = List.replicate (width - (c :: s).length) '0' ++ c :: s := by
            unfold Spec.zfill
            split
            · rename_i he; exact absurd (List.cons.inj he).1 h2
            · rename_i he; exact absurd (List.cons.inj he).1 h1
            · rfl
          simp only [this, List.head?_cons, Option.some.injEq, h1, h2, or_self, if_false]
          split
          · rw [show width - (c :: s).length = 0 by omega]; rfl
          · simp
  unfold charZfill
  rw [hop]
  refine applyUnary_holds hwf hc h fun s hs => ?_
  have hz : NoNul (List.replicate (width - s.length) '0') := noNul_replicate (by decide)
  unfold Spec.zfill
  dsimp only
  split
  · rename_i r
    have := noNul_of_append (a := ['+']) (b := r) hs
    exact noNul_append (a := ['+']) this.1 (noNul_append hz this.2)
  · rename_i r
    have := noNul_of_append (a := ['-']) (b := r) hs
    exact noNul_append (a := ['-']) this.1 (noNul_append hz this.2)
  · exact noNul_append hz hs

/-- C54.  `center`, for C-contiguous arrays, unless the padding and the width are both odd. -/
theorem C54_center_partial (a : Strs) (t : Nd (List Char)) (hwf : a.view.WF) (hc : a.view.cFlag = true) (h : a.Holds t)
    (width : Nat) (fill : Char) (hf : fill ≠ nul)
    (hodd : ∀ idx, InShape t.shape idx → ¬ ((width - (t.get idx).length) % 2 = 1 ∧ width % 2 = 1)) :
    (charCenter a width fill).strs.Holds ⟨t.shape, fun idx => Spec.center (t.get idx) width fill⟩ := by
  have hh := applyUnary_holds hwf hc h (op := fun s => if s.length ≥ width then s else
      let total := width - s.length
      let left := total / 2
      List.replicate left fill ++ s ++ List.replicate (total - left) fill) (by
    intro s hs
    split
    · exact hs
    · exact noNul_append (noNul_append (noNul_replicate hf) hs) (noNul_replicate hf))
  refine ⟨hh.1, hh.2.1, hh.2.2.1, fun idx hi => ?_⟩
  have := hh.2.2.2 idx hi
  have e : (if (t.get idx).length ≥ width then t.get idx else
      let total := width - (t.get idx).length
      let left := total / 2
      List.replicate left fill ++ t.get idx ++ List.replicate (total - left) fill) = Spec.center (t.get idx) width fill := by
    unfold Spec.center
    dsimp only
    rw [if_neg (hodd idx hi)]
    split
    · rw [show width - (t.get idx).length = 0 by omega]; simp
    · simp
  simp only at this ⊢
  rw [← e]
  exact this

/-- C54 fails when both are odd: `'ab'.center(5, '*')` is `'**ab*'`, here `'*ab**'`. -/
theorem C54_center_counterexample :
    (charCenter (fromVec 4 Char.toNat [['a', 'b']] 2).strs 5 '*').units = ['*', 'a', 'b', '*', '*'].map Char.toNat ∧
      Spec.center ['a', 'b'] 5 '*' = ['*', '*', 'a', 'b', '*'] := by decide +kernel

/-- C54.  `expandtabs`, for C-contiguous arrays. -/
theorem C54_expandtabs_partial (a : Strs) (t : Nd (List Char)) (hwf : a.view.WF) (hc : a.view.cFlag = true) (h : a.Holds t)
    (tabsize : Nat) :
    (charExpandtabs a tabsize).strs.Holds ⟨t.shape, fun idx => Spec.expandtabs tabsize (t.get idx)⟩ := by
  have hop : expandLoop tabsize 0 = fun s => Spec.expandtabs tabsize s := by
    funext s
    have := expandLoop_eq tabsize s []
    exact this.symm
  unfold charExpandtabs
  rw [hop]
  refine applyUnary_holds hwf hc h fun s hs => ?_
  rw [← congrFun hop s]
  have : ∀ (s : List Char) (col : Nat), NoNul s → NoNul (expandLoop tabsize col s) := by
    intro s
    induction s with
    | nil => intro col hs; exact hs
    | cons c s ih =>
      intro col hs
      have hsp := noNul_of_append (a := [c]) (b := s) hs
      rw [expandLoop.eq_2]
      split
      · exact noNul_append (noNul_replicate (by decide)) (ih _ hsp.2)
      · split
        · exact noNul_append (a := [c]) hsp.1 (ih _ hsp.2)
        · exact noNul_append (a := [c]) hsp.1 (ih _ hsp.2)
  exact this s 0 hs

/-- C54.  `multiply` repeats each element, for C-contiguous arrays. -/
theorem C54_multiply_partial (a : Strs) (t : Nd (List Char)) (hwf : a.view.WF) (hc : a.view.cFlag = true) (h : a.Holds t)
    (n : Nat) : (charMultiply a n).strs.Holds ⟨t.shape, fun idx => (List.replicate n (t.get idx)).flatten⟩ := by
  unfold charMultiply
  refine applyUnary_holds hwf hc h fun s hs hx => ?_
  obtain ⟨l, hl, hx⟩ := List.mem_flatten.1 hx
  rw [List.eq_of_mem_replicate hl] at hx
  exact hs hx

/-- C54.  `add` joins the elements of two C-contiguous arrays of one shape; other shapes are refused. -/
theorem C54_add_partial (a b : Strs) (t u : Nd (List Char)) (hwa : a.view.WF) (hwb : b.view.WF)
    (hca : a.view.cFlag = true) (hcb : b.view.cFlag = true) (ha : a.Holds t) (hb : b.Holds u) :
    (charAdd a b = none ↔ t.shape ≠ u.shape) ∧
      ∀ o, charAdd a b = some o → o.strs.Holds ⟨t.shape, fun idx => t.get idx ++ u.get idx⟩ := by
  unfold charAdd applyBinary
  constructor
  · rw [ha.2.2.1, hb.2.2.1]
    split <;> simp_all
  · intro o ho
    split at ho
    · simp at ho
    · rename_i hne
      obtain rfl := Option.some.inj ho
      have hsh : a.view.shape = b.view.shape := not_not.1 hne
      have hsu : t.shape = u.shape := by rw [← ha.2.2.1, ← hb.2.2.1, hsh]
      have hra := readFlat_eq hwa hca ha
      have hrb := readFlat_eq hwb hcb hb
      have hr : (List.range (Rumpy.sizeOf a.view.shape)).map (fun i => readFlat a i ++ readFlat b i) =
          (indices t.shape).map fun idx => t.get idx ++ u.get idx := by
        have h1 : (List.range (Rumpy.sizeOf a.view.shape)).map (fun i => readFlat a i ++ readFlat b i) =
            List.zipWith (· ++ ·) ((List.range (Rumpy.sizeOf a.view.shape)).map (readFlat a))
              ((List.range (Rumpy.sizeOf a.view.shape)).map (readFlat b)) := by
          rw [List.zipWith_map, List.zipWith_self]
        rw [h1, hra, hsh, hrb, ← hsu, List.zipWith_map, List.zipWith_self]
      rw [hr, ha.2.2.1]
      exact storeResults_holds fun idx hi => noNul_append (noNul_of_holds ha hi) (noNul_of_holds hb (hsu ▸ hi))

/-- C54.  The comparisons of two C-contiguous arrays of one shape compare the texts. -/
theorem C54_compare_partial (a b : Strs) (t u : Nd (List Char)) (hwa : a.view.WF) (hwb : b.view.WF)
    (hca : a.view.cFlag = true) (hcb : b.view.cFlag = true) (ha : a.Holds t) (hb : b.Holds u) (cmp : StrCmp) :
    (compareStrings a b cmp = none ↔ t.shape ≠ u.shape) ∧
      ∀ o, compareStrings a b cmp = some o → ∃ r : Nd Bool, o.Is r ∧ r.shape = t.shape ∧ ∀ idx, InShape t.shape idx →
        (r.get idx = true ↔ match cmp with
          | .eq => t.get idx = u.get idx
          | .ne => t.get idx ≠ u.get idx
          | .lt => TextLt (t.get idx) (u.get idx)
          | .le => TextLt (t.get idx) (u.get idx) ∨ t.get idx = u.get idx
          | .gt => TextLt (u.get idx) (t.get idx)
          | .ge => TextLt (u.get idx) (t.get idx) ∨ t.get idx = u.get idx) := by
  unfold compareStrings
  constructor
  · rw [ha.2.2.1, hb.2.2.1]
    split <;> simp_all
  · intro o ho
    split at ho
    · simp at ho
    · rename_i hne
      obtain rfl := Option.some.inj ho
      have hsh : a.view.shape = b.view.shape := not_not.1 hne
      have hsu : t.shape = u.shape := by rw [← ha.2.2.1, ← hb.2.2.1, hsh]
      have hra := readFlat_eq hwa hca ha
      have hrb := readFlat_eq hwb hcb hb
      refine ⟨⟨t.shape, fun idx => cmp.eval (compareText (t.get idx) (u.get idx))⟩, ⟨ha.2.2.1, ?_⟩, rfl, fun idx hi => ?_⟩
      · simp only
        have hz : (List.range (Rumpy.sizeOf a.view.shape)).map (fun i => (i, cmp.eval (compareText (readFlat a i) (readFlat b i)))) =
            (List.range (Rumpy.sizeOf a.view.shape)).zipIdx.map fun x => (x.2, cmp.eval (compareText (readFlat a x.1) (readFlat b x.1))) := by
          apply List.ext_getElem <;> simp
        rw [hz, writes_zipIdx (fun i => cmp.eval (compareText (readFlat a i) (readFlat b i))) _ _ (by simp)]
        have h1 : (List.range (Rumpy.sizeOf a.view.shape)).map (fun i => cmp.eval (compareText (readFlat a i) (readFlat b i))) =
            List.zipWith (fun x y => cmp.eval (compareText x y)) ((List.range (Rumpy.sizeOf a.view.shape)).map (readFlat a))
              ((List.range (Rumpy.sizeOf a.view.shape)).map (readFlat b)) := by
          rw [List.zipWith_map, List.zipWith_self]
        rw [h1, hra, hsh, hrb, ← hsu, List.zipWith_map, List.zipWith_self]
        rfl
      · simp only
        have ⟨h1, h2, h3⟩ := compareText_spec (t.get idx) (u.get idx)
        cases cmp <;> simp only [StrCmp.eval, ne_eq, ← h1, ← h2, ← h3] <;>
          cases compareText (t.get idx) (u.get idx) <;> simp

/-- C54 fails for arrays that are not contiguous: in `backwards`, which holds `'ok'` and `'hi'`, the
element after `'ok'` in memory is read instead of `'hi'`, here past the end of the buffer. -/
theorem C54_strided_counterexample :
    backwards.Holds backwardsTexts ∧ (charLjust backwards 2 ' ').units = ['o', 'k', ' ', ' '].map Char.toNat ∧
      Spec.ljust (backwardsTexts.get [1]) 2 ' ' = ['h', 'i'] ∧
      (compareStrings backwards (fromVec 4 Char.toNat [['o', 'k'], ['h', 'i']] 2).strs .eq).map Arr.data = some [true, false] :=
  ⟨backwards_holds, by decide +kernel, rfl, by decide +kernel⟩

/-- Two C-contiguous strings for the examples. -/
def words : Strs := (fromVec 4 Char.toNat [['-', '7'], ['a', '\t']] 2).strs

/-- What they are. -/
def wordTexts : Nd (List Char) := ⟨[2], fun idx => if idx = [0] then ['-', '7'] else ['a', '\t']⟩

theorem words_wf : words.view.WF := View.WF.fresh _ _

theorem words_holds : words.Holds wordTexts := by
  refine ⟨rfl, rfl, rfl, fun idx hi => ?_⟩
  match idx, hi with
  | [0], _ => exact ⟨by decide, by decide, by decide⟩
  | [1], _ => exact ⟨by decide, by decide, by decide⟩

example : (charZfill words 4).strs.Holds ⟨[2], fun idx => Spec.zfill (wordTexts.get idx) 4⟩ :=
  C54_zfill_partial words wordTexts words_wf rfl words_holds 4
example : Spec.zfill (wordTexts.get [0]) 4 = ['-', '0', '0', '7'] := by decide
example : (charCenter words 4 '*').strs.Holds ⟨[2], fun idx => Spec.center (wordTexts.get idx) 4 '*'⟩ :=
  C54_center_partial words wordTexts words_wf rfl words_holds 4 '*' (by decide) (by intro idx hi; omega)
example : (charExpandtabs words 4).strs.Holds ⟨[2], fun idx => Spec.expandtabs 4 (wordTexts.get idx)⟩ :=
  C54_expandtabs_partial words wordTexts words_wf rfl words_holds 4
example : Spec.expandtabs 4 (wordTexts.get [1]) = ['a', ' ', ' ', ' '] := by decide
example : ∃ o, charAdd words words = some o ∧ o.strs.Holds ⟨[2], fun idx => wordTexts.get idx ++ wordTexts.get idx⟩ := by
  have h := C54_add_partial words words wordTexts wordTexts words_wf words_wf rfl rfl words_holds words_holds
  match hm : charAdd words words with
  | some o => exact ⟨o, rfl, h.2 o hm⟩
  | none => exact absurd rfl (h.1.1 hm)

end Props
