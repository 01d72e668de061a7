import Verif.Model.TextFile
import Verif.Lemmas.DateText
import Verif.Lemmas.Io
/-!
# Lemmas: text files
-/

namespace Rumpy
open Spec

/-! ### Splitting at a separator -/

theorem splitGo_ne_nil (sep : List Char) (k : Nat) (s : List Char) : splitGo sep k s ≠ [] := by
  induction s generalizing k with
  | nil => cases k <;> simp [splitGo]
  | cons c s ih =>
    cases k with
    | succ k => exact ih k
    | zero =>
      rw [splitGo]
      split
      · simp
      · split <;> simp

theorem splitGo_skip (sep l s : List Char) : splitGo sep l.length (l ++ s) = splitGo sep 0 s := by
  induction l with
  | nil => rfl
  | cons c l ih => simpa [splitGo] using ih

/-- A text without the first character of the separator is one piece. -/
theorem splitStr_none {c : Char} {sep s : List Char} (h : c ∉ s) : splitStr (c :: sep) s = [s] := by
  unfold splitStr
  induction s with
  | nil => rfl
  | cons d s ih =>
    rw [splitGo, if_neg, ih (fun hc => h (List.mem_cons_of_mem _ hc))]
    simp only [List.isPrefixOf_iff_prefix, List.cons_prefix_cons]
    rintro ⟨rfl, -⟩
    simp at h

theorem splitStr_append {c : Char} {sep p : List Char} (h : c ∉ p) (rest : List Char) :
    splitStr (c :: sep) (p ++ ((c :: sep) ++ rest)) = p :: splitStr (c :: sep) rest := by
  unfold splitStr
  induction p with
  | nil =>
    rw [List.nil_append, List.cons_append, splitGo, if_pos]
    · rw [List.length_cons, Nat.add_sub_cancel, splitGo_skip]
    · rw [List.isPrefixOf_iff_prefix]
      exact ⟨rest, rfl⟩
  | cons d p ih =>
    rw [List.cons_append, splitGo, if_neg, ih (fun hc => h (List.mem_cons_of_mem _ hc))]
    simp only [List.isPrefixOf_iff_prefix, List.cons_prefix_cons]
    rintro ⟨rfl, -⟩
    simp at h

theorem splitGo_drop (sep : List Char) (k : Nat) (s : List Char) : splitGo sep k s = splitGo sep 0 (s.drop k) := by
  induction k generalizing s with
  | zero => rfl
  | succ k ih =>
    cases s with
    | nil => rfl
    | cons c s => rw [splitGo, ih, List.drop_succ_cons]

/-- The pieces put together again are the text. -/
theorem splitStr_join {sep : List Char} (hsep : sep ≠ []) (s : List Char) :
    List.intercalate sep (splitStr sep s) = s := by
  unfold splitStr
  induction hn : s.length using Nat.strong_induction_on generalizing s with
  | _ n ih =>
    subst hn
    cases s with
    | nil => simp [splitGo]
    | cons c s =>
      rw [splitGo]
      split
      · rename_i h
        rw [splitGo_drop]
        have e := ih (s.drop (sep.length - 1)).length (by simp) _ rfl
        obtain ⟨t, ht⟩ := List.isPrefixOf_iff_prefix.1 h
        obtain ⟨d, sep', rfl⟩ := List.exists_cons_of_ne_nil hsep
        simp only [List.cons_append, List.cons.injEq] at ht
        obtain ⟨rfl, rfl⟩ := ht
        simp only [List.length_cons, Nat.add_sub_cancel, List.drop_left'] at e ⊢
        cases hq : splitGo (d :: sep') 0 t with
        | nil => exact absurd hq (splitGo_ne_nil _ _ _)
        | cons p ps =>
          rw [hq] at e
          rw [List.intercalate_cons_cons, e]
          simp
      · have e := ih s.length (by simp) _ rfl
        cases hq : splitGo sep 0 s with
        | nil => exact absurd hq (splitGo_ne_nil _ _ _)
        | cons p ps =>
          rw [hq] at e
          dsimp only
          conv_rhs => rw [← e]
          cases ps with
          | nil => simp
          | cons q ps => rw [List.intercalate_cons_cons, List.intercalate_cons_cons]; simp

theorem splitGo_head_prefix (sep s p : List Char) (ps : List (List Char)) (h : splitGo sep 0 s = p :: ps) : p <+: s := by
  induction s generalizing p ps with
  | nil => simp [splitGo] at h; simp [h.1]
  | cons c s ih =>
    rw [splitGo] at h
    split at h
    · simp only [List.cons.injEq] at h
      rw [← h.1]
      exact List.nil_prefix
    · cases hq : splitGo sep 0 s with
      | nil => exact absurd hq (splitGo_ne_nil _ _ _)
      | cons q qs =>
        rw [hq] at h
        simp only [List.cons.injEq] at h
        rw [← h.1]
        exact List.cons_prefix_cons.2 ⟨rfl, ih q qs hq⟩

/-- No piece holds the separator. -/
theorem splitStr_free {sep : List Char} (hsep : sep ≠ []) (s : List Char) : ∀ p ∈ splitStr sep s, ¬ sep <:+: p := by
  unfold splitStr
  induction hn : s.length using Nat.strong_induction_on generalizing s with
  | _ n ih =>
    subst hn
    cases s with
    | nil =>
      intro p hp
      simp only [splitGo, List.mem_singleton] at hp
      subst hp
      simpa using hsep
    | cons c s =>
      intro p hp
      rw [splitGo] at hp
      split at hp
      · rw [splitGo_drop] at hp
        rcases List.mem_cons.1 hp with rfl | hp
        · simpa using hsep
        · exact ih (s.drop (sep.length - 1)).length (by simp) _ rfl p hp
      · rename_i hno
        have e := ih s.length (by simp) _ rfl
        cases hq : splitGo sep 0 s with
        | nil => exact absurd hq (splitGo_ne_nil _ _ _)
        | cons q qs =>
          rw [hq] at e hp
          dsimp only at hp
          rcases List.mem_cons.1 hp with rfl | hp
          · intro hin
            rcases List.infix_cons_iff.1 hin with h1 | h1
            · exact hno (List.isPrefixOf_iff_prefix.2 (h1.trans (List.cons_prefix_cons.2 ⟨rfl, splitGo_head_prefix _ _ _ _ hq⟩)))
            · exact e q (by simp) h1
          · exact e p (by simp [hp])

/-! ### Splitting at whitespace -/

theorem splitSpaces_ne_nil (s : List Char) : splitSpaces s ≠ [] := by
  cases s with
  | nil => simp [splitSpaces]
  | cons c s =>
    rw [splitSpaces]
    split
    · simp
    · split <;> simp

theorem splitSpaces_none {s : List Char} (h : ∀ c ∈ s, isSpaceChar c = false) : splitSpaces s = [s] := by
  induction s with
  | nil => rfl
  | cons c s ih =>
    rw [splitSpaces, if_neg (by simp [h c (by simp)]), ih (fun d hd => h d (List.mem_cons_of_mem _ hd))]

theorem splitSpaces_append {p : List Char} (h : ∀ c ∈ p, isSpaceChar c = false) {c : Char} (hc : isSpaceChar c = true)
    (rest : List Char) : splitSpaces (p ++ c :: rest) = p :: splitSpaces rest := by
  induction p with
  | nil => rw [List.nil_append, splitSpaces, if_pos hc]
  | cons d p ih =>
    rw [List.cons_append, splitSpaces, if_neg (by simp [h d (by simp)]), ih (fun d hd => h d (List.mem_cons_of_mem _ hd))]

theorem splitWhitespace_word {s : List Char} (hs : s ≠ []) (h : ∀ c ∈ s, isSpaceChar c = false) : splitWhitespace s = [s] := by
  unfold splitWhitespace
  rw [splitSpaces_none h]
  cases s with
  | nil => exact absurd rfl hs
  | cons c s => rfl

theorem splitWhitespace_space {c : Char} (hc : isSpaceChar c = true) (s : List Char) :
    splitWhitespace (c :: s) = splitWhitespace s := by
  unfold splitWhitespace
  rw [splitSpaces, if_pos hc]
  rfl

theorem splitWhitespace_spaces {l : List Char} (h : ∀ c ∈ l, isSpaceChar c = true) (s : List Char) :
    splitWhitespace (l ++ s) = splitWhitespace s := by
  induction l with
  | nil => rfl
  | cons c l ih =>
    rw [List.cons_append, splitWhitespace_space (h c (by simp)), ih (fun d hd => h d (List.mem_cons_of_mem _ hd))]

theorem splitWhitespace_append {p : List Char} (hp : p ≠ []) (h : ∀ c ∈ p, isSpaceChar c = false) {l : List Char}
    (hl : l ≠ []) (hs : ∀ c ∈ l, isSpaceChar c = true) (rest : List Char) :
    splitWhitespace (p ++ (l ++ rest)) = p :: splitWhitespace rest := by
  obtain ⟨c, l, rfl⟩ := List.exists_cons_of_ne_nil hl
  have e : splitWhitespace (p ++ (c :: l ++ rest)) = p :: splitWhitespace (l ++ rest) := by
    unfold splitWhitespace
    rw [List.cons_append, splitSpaces_append h (hs c (by simp))]
    cases p with
    | nil => exact absurd rfl hp
    | cons d p => rfl
  rw [e, splitWhitespace_spaces (fun d hd => hs d (List.mem_cons_of_mem _ hd))]

/-! ### Trimming -/

/-- A text that begins and ends with other characters than spaces is not trimmed. -/
theorem trimStr_ends {s : List Char} (h1 : ∀ c ∈ s.head?, isSpaceChar c = false)
    (h2 : ∀ c ∈ s.getLast?, isSpaceChar c = false) : trimStr s = s := by
  have drop : ∀ l : List Char, (∀ c ∈ l.head?, isSpaceChar c = false) → l.dropWhile isSpaceChar = l := by
    intro l hl
    cases l with
    | nil => rfl
    | cons c l => exact List.dropWhile_cons_of_neg (by simp [hl c (by simp)])
  unfold trimStr
  rw [drop s h1, drop s.reverse (by simpa using h2), List.reverse_reverse]

theorem trimStr_no_space {s : List Char} (h : ∀ c ∈ s, isSpaceChar c = false) : trimStr s = s :=
  trimStr_ends (fun c hc => h c (List.mem_of_mem_head? hc)) (fun c hc => h c (List.mem_of_mem_getLast? hc))

theorem trimStr_append_space (s : List Char) {c : Char} (hc : isSpaceChar c = true) : trimStr (s ++ [c]) = trimStr s := by
  unfold trimStr
  rw [List.dropWhile_append]
  split
  · rename_i h
    rw [List.isEmpty_iff] at h
    rw [h, List.dropWhile_cons_of_pos hc]
    rfl
  · rw [List.reverse_append, List.reverse_singleton, List.singleton_append, List.dropWhile_cons_of_pos hc]

theorem trimStr_stripCr (s : List Char) : trimStr (stripCr s) = trimStr s := by
  unfold stripCr
  split
  · rename_i h
    obtain ⟨l, rfl⟩ := List.getLast?_eq_some_iff.1 h
    rw [List.dropLast_concat, trimStr_append_space _ (by decide)]
  · rfl

/-- What begins with a text without spaces at its ends still does so after trimming. -/
theorem trimStr_prefix {c s : List Char} (hc : c ≠ []) (h1 : ∀ d ∈ c.head?, isSpaceChar d = false)
    (h2 : ∀ d ∈ c.getLast?, isSpaceChar d = false) : c <+: trimStr (c ++ s) := by
  unfold trimStr
  have e : (c ++ s).dropWhile isSpaceChar = c ++ s := by
    cases c with
    | nil => exact absurd rfl hc
    | cons d c => exact List.dropWhile_cons_of_neg (by simp [h1 d (by simp)])
  rw [e, List.reverse_append, List.dropWhile_append]
  split
  · have e2 : c.reverse.dropWhile isSpaceChar = c.reverse := by
      cases hr : c.reverse with
      | nil => rfl
      | cons d r =>
        refine List.dropWhile_cons_of_neg ?_
        have := h2 d (by rw [List.getLast?_eq_head?_reverse, hr]; rfl)
        simp [this]
    rw [e2, List.reverse_reverse]
  · rw [List.reverse_append, List.reverse_reverse]
    exact ⟨_, rfl⟩

theorem isDataLine_stripCr (comments l : List Char) : isDataLine comments (stripCr l) = isDataLine comments l := by
  unfold isDataLine
  rw [trimStr_stripCr]

theorem fieldsOf_stripCr (delimiter l : List Char) : fieldsOf delimiter (stripCr l) = fieldsOf delimiter l := by
  unfold fieldsOf
  rw [trimStr_stripCr]

/-! ### Lines -/

theorem fileLines_cons {l : List Char} (h : '\n' ∉ l) (rest : List Char) :
    fileLines (l ++ '\n' :: rest) = stripCr l :: fileLines rest := by
  unfold fileLines
  have e : splitOn '\n' (l ++ '\n' :: rest) = l :: splitOn '\n' rest := by
    induction l with
    | nil => rw [List.nil_append, splitOn, if_pos rfl]
    | cons c l ih =>
      rw [List.cons_append, splitOn, if_neg (by rintro rfl; simp at h), ih (fun hc => h (List.mem_cons_of_mem _ hc))]
  have ne : splitOn '\n' rest ≠ [] := by
    cases rest with
    | nil => simp [splitOn]
    | cons c s =>
      rw [splitOn]
      split
      · simp
      · split <;> simp
  rw [e]
  obtain ⟨p, ps, hp⟩ := List.exists_cons_of_ne_nil ne
  rw [hp]
  simp [List.getLast?_cons_cons]

theorem fileLines_nil : fileLines [] = [] := rfl

/-- Lines that are written one after the other are read back. -/
theorem fileLines_flatMap {ls : List (List Char)} (h : ∀ l ∈ ls, '\n' ∉ l) (rest : List Char) :
    fileLines (ls.flatMap (fun l => l ++ ['\n']) ++ rest) = ls.map stripCr ++ fileLines rest := by
  induction ls with
  | nil => rfl
  | cons l ls ih =>
    rw [List.flatMap_cons, List.append_assoc, List.append_assoc, List.singleton_append,
      fileLines_cons (h l (by simp)), ih (fun m hm => h m (List.mem_cons_of_mem _ hm))]
    rfl

theorem splitOn_free (c : Char) (s : List Char) : ∀ p ∈ splitOn c s, c ∉ p := by
  induction s with
  | nil => simp [splitOn]
  | cons d s ih =>
    intro p hp
    rw [splitOn] at hp
    split at hp
    · rcases List.mem_cons.1 hp with rfl | hp
      · simp
      · exact ih p hp
    · rename_i hne
      split at hp
      · simp only [List.mem_singleton] at hp
        subst hp
        simpa using fun e => hne e.symm
      · rename_i q qs hq
        rw [hq] at ih
        rcases List.mem_cons.1 hp with rfl | hp
        · simp only [List.mem_cons, not_or]
          exact ⟨fun e => hne e.symm, ih q (by simp)⟩
        · exact ih p (by simp [hp])

theorem fileLines_free (s : List Char) : ∀ l ∈ fileLines s, '\n' ∉ l := by
  intro l hl
  unfold fileLines at hl
  rcases List.mem_append.1 hl with h | h
  · obtain ⟨p, hp, rfl⟩ := List.mem_map.1 h
    have := splitOn_free '\n' s p (List.mem_of_mem_dropLast hp)
    unfold stripCr
    split
    · exact fun hc => this (List.mem_of_mem_dropLast hc)
    · exact this
  · rw [List.mem_filter, Option.mem_toList] at h
    exact splitOn_free '\n' s l (List.mem_of_mem_getLast? h.1)

/-! ### The loop -/

theorem takeRow_nrows {cell : τ → Option α} {acc acc' : TableAcc α} {row : List τ} (h : takeRow cell acc row = some acc') :
    acc'.nrows = acc.nrows + 1 := by
  unfold takeRow at h
  split at h
  · exact absurd h (by simp)
  · obtain ⟨v, -, rfl⟩ := Option.map_eq_some_iff.1 h
    rfl

theorem tableLoop_eq (cell : List Char → Option α) (comments delimiter : List Char) (usecols : Option (List Nat)) (skip : Nat)
    (last max : Option Nat) (lines : List (List Char)) (num : Nat) (acc : TableAcc α) :
    tableLoop cell comments delimiter usecols skip last max lines num acc =
      ((upTo (max.map (· - acc.nrows))
        (((upTo (last.map (· - num)) lines).drop (skip - num)).filter (isDataLine comments))).map
          fun line => selectCols usecols (fieldsOf delimiter line)).foldlM (takeRow cell) acc := by
  have up0 : ∀ (o : Option Nat) (β : Type) , upTo (α := β) o [] = [] := by
    intro o β
    cases o <;> simp [upTo]
  induction lines generalizing num acc with
  | nil => simp [tableLoop, up0]
  | cons line lines ih =>
    have hup : ¬ (last.any (num ≥ ·)) = true →
        upTo (last.map (· - num)) (line :: lines) = line :: upTo (last.map (· - (num + 1))) lines := by
      intro h
      cases last with
      | none => rfl
      | some k =>
        have hk : num < k := by simpa using h
        show (line :: lines).take (k - num) = line :: lines.take (k - (num + 1))
        rw [show k - num = (k - (num + 1)) + 1 by omega, List.take_succ_cons]
    have hend : (last.any (num ≥ ·)) = true → upTo (last.map (· - num)) (line :: lines) = [] := by
      intro h
      cases last with
      | none => simp at h
      | some k =>
        have hk : k ≤ num := by simpa using h
        show (line :: lines).take (k - num) = []
        rw [show k - num = 0 by omega, List.take_zero]
    have hend' : (last.any (num ≥ ·)) = true → upTo (last.map (· - (num + 1))) lines = [] := by
      intro h
      cases last with
      | none => simp at h
      | some k =>
        have hk : k ≤ num := by simpa using h
        show lines.take (k - (num + 1)) = []
        rw [show k - (num + 1) = 0 by omega, List.take_zero]
    rw [tableLoop]
    by_cases h1 : num < skip
    · rw [if_pos h1, ih]
      by_cases h2 : (last.any (num ≥ ·)) = true
      · rw [hend h2, hend' h2, List.drop_nil, List.drop_nil]
      · rw [hup h2, show skip - num = (skip - (num + 1)) + 1 by omega, List.drop_succ_cons]
    · rw [if_neg h1]
      have z1 : skip - num = 0 := by omega
      have z2 : skip - (num + 1) = 0 := by omega
      by_cases h2 : (last.any (num ≥ ·)) = true
      · rw [if_pos h2, hend h2, List.drop_nil, List.filter_nil, up0]
        rfl
      · rw [if_neg h2, hup h2, z1, List.drop_zero]
        by_cases h3 : (max.any (acc.nrows ≥ ·)) = true
        · rw [if_pos h3]
          cases max with
          | none => simp at h3
          | some k =>
            have hk : k ≤ acc.nrows := by simpa using h3
            have hz : k - acc.nrows = 0 := by omega
            simp only [Option.map_some, hz, upTo, List.take_zero, List.map_nil]
            rfl
        · rw [if_neg h3]
          by_cases h4 : isDataLine comments line = true
          · rw [if_pos h4, List.filter_cons_of_pos h4]
            have hm : ∀ l, upTo (max.map (· - acc.nrows)) (line :: l) = line :: upTo (max.map (· - (acc.nrows + 1))) l := by
              intro l
              cases max with
              | none => rfl
              | some k =>
                have hk : acc.nrows < k := by simpa using h3
                show (line :: l).take (k - acc.nrows) = line :: l.take (k - (acc.nrows + 1))
                rw [show k - acc.nrows = (k - (acc.nrows + 1)) + 1 by omega, List.take_succ_cons]
            rw [hm, List.map_cons, List.foldlM_cons]
            cases hr : takeRow cell acc (selectCols usecols (fieldsOf delimiter line)) with
            | none => rfl
            | some acc' =>
              dsimp only
              rw [ih, takeRow_nrows hr, z2, List.drop_zero]
              rfl
          · rw [if_neg h4, List.filter_cons_of_neg h4, ih, z2, List.drop_zero]

theorem forall₂_mapM {cell : τ → Option α} {row : List τ} {xs : List α} :
    row.mapM cell = some xs ↔ List.Forall₂ (fun t x => cell t = some x) row xs := by
  induction row generalizing xs with
  | nil => cases xs <;> simp
  | cons t row ih =>
    rw [List.mapM_cons]
    cases ht : cell t with
    | none =>
      constructor
      · intro h; cases h
      · intro h
        cases h with
        | cons a b => rw [ht] at a; cases a
    | some x =>
      rw [Option.bind_eq_bind, Option.bind_some]
      constructor
      · intro h
        cases hr : row.mapM cell with
        | none => rw [hr] at h; cases h
        | some ys =>
          rw [hr] at h
          cases h
          exact .cons ht (ih.1 hr)
      · intro h
        cases h with
        | cons a b =>
          rw [ih.2 b]
          rw [ht] at a
          cases a
          rfl

theorem foldlM_takeRow (cell : τ → Option α) (rows : List (List τ)) (acc acc' : TableAcc α) (m : Nat)
    (hm : acc.ncols = some m) :
    rows.foldlM (takeRow cell) acc = some acc' ↔
      ∃ vals, Reads cell m rows vals ∧ acc' = ⟨acc.data ++ vals.flatten, some m, acc.nrows + rows.length⟩ := by
  induction rows generalizing acc with
  | nil =>
    obtain ⟨d, nc, nr⟩ := acc
    simp only at hm
    subst hm
    constructor
    · intro h
      refine ⟨[], .nil, ?_⟩
      simp only [List.foldlM_nil, Option.pure_def, Option.some.injEq] at h
      rw [← h]
      simp
    · rintro ⟨vals, hv, rfl⟩
      cases hv
      simp
  | cons row rows ih =>
    rw [List.foldlM_cons, Option.bind_eq_bind, Option.bind_eq_some_iff]
    constructor
    · rintro ⟨acc1, h1, h2⟩
      unfold takeRow at h1
      rw [hm] at h1
      split at h1
      · exact absurd h1 (by simp)
      · rename_i hl
        have hl : m = row.length := not_not.1 hl
        obtain ⟨xs, hx, rfl⟩ := Option.map_eq_some_iff.1 h1
        obtain ⟨vals, hv, rfl⟩ := (ih _ (by rw [hl])).1 h2
        refine ⟨xs :: vals, .cons ⟨hl.symm, forall₂_mapM.1 hx⟩ hv, ?_⟩
        simp only [List.flatten_cons, List.append_assoc, List.length_cons, TableAcc.mk.injEq, true_and]
        omega
    · rintro ⟨vals, hv, rfl⟩
      cases hv with
      | cons a b =>
        rename_i xs vals
        refine ⟨⟨acc.data ++ xs, some row.length, acc.nrows + 1⟩, ?_, ?_⟩
        · unfold takeRow
          rw [hm, if_neg (by simp [a.1]), forall₂_mapM.2 a.2]
          rfl
        · rw [ih _ (by rw [a.1])]
          refine ⟨vals, b, ?_⟩
          simp only [List.flatten_cons, List.append_assoc, List.length_cons, TableAcc.mk.injEq, true_and]
          omega

/-- The rows of a table, from the beginning. -/
theorem foldlM_takeRow_start (cell : τ → Option α) (rows : List (List τ)) (a : Arr α) :
    (rows.foldlM (takeRow cell) ⟨[], none, 0⟩).map tableArr = some a ↔
      ∃ m vals, Reads cell m rows vals ∧
        a = if rows = [] then ⟨[0, 0], []⟩ else ⟨if m = 1 then [rows.length] else [rows.length, m], vals.flatten⟩ := by
  cases rows with
  | nil =>
    simp only [List.foldlM_nil, Option.pure_def, Option.map_some, Option.some.injEq, if_true]
    constructor
    · intro h
      exact ⟨0, [], .nil, by rw [← h]; rfl⟩
    · rintro ⟨m, vals, -, h⟩
      rw [h]
      rfl
  | cons row rows =>
    have e0 : ¬ (row :: rows = []) := by simp
    simp only [e0, if_false]
    have key : ∀ acc', (row :: rows).foldlM (takeRow cell) ⟨[], none, 0⟩ = some acc' ↔
        (row :: rows).foldlM (takeRow cell) ⟨[], some row.length, 0⟩ = some acc' := by
      intro acc'
      rw [List.foldlM_cons, List.foldlM_cons]
      rfl
    rw [Option.map_eq_some_iff]
    constructor
    · rintro ⟨acc', h, rfl⟩
      obtain ⟨vals, hv, rfl⟩ := (foldlM_takeRow _ _ _ _ row.length rfl).1 ((key _).1 h)
      refine ⟨row.length, vals, hv, ?_⟩
      simp [tableArr]
    · rintro ⟨m, vals, hv, rfl⟩
      have hm : row.length = m := by
        cases hv with
        | cons a b => exact a.1
      refine ⟨_, (key _).2 ((foldlM_takeRow _ _ _ _ m (by rw [hm])).2 ⟨vals, hv, rfl⟩), ?_⟩
      simp [tableArr]

/-! ### Rows -/

theorem rowText_eq (delimiter newline : List Char) (fields : List (List Char)) :
    rowText delimiter newline fields = List.intercalate delimiter fields ++ newline := by
  unfold rowText
  congr 1
  cases fields with
  | nil => rfl
  | cons f fs =>
    rw [List.zipIdx_cons, List.flatMap_cons]
    have h : ∀ (fs : List (List Char)) (f : List Char) (k : Nat), 0 < k →
        f ++ (fs.zipIdx k).flatMap (fun p => (if p.2 > 0 then delimiter else []) ++ p.1) = List.intercalate delimiter (f :: fs) := by
      intro fs
      induction fs with
      | nil => intro f k _; simp
      | cons g fs ih =>
        intro f k hk
        rw [List.zipIdx_cons, List.flatMap_cons, List.intercalate_cons_cons, ← ih g (k + 1) (by omega)]
        simp [hk]
    simpa using h fs f 1 (by omega)

theorem blocks_flatten (l : List α) (n m : Nat) :
    ((List.range n).map fun r => (l.drop (r * m)).take m).flatten = l.take (n * m) := by
  induction n with
  | zero => simp
  | succ n ih =>
    rw [List.range_succ, List.map_append, List.flatten_append, ih, Nat.succ_mul, List.take_add]
    simp

theorem splitStr_intercalate {c : Char} {sep : List Char} {ws : List (List Char)} (hne : ws ≠ []) (h : ∀ w ∈ ws, c ∉ w) :
    splitStr (c :: sep) (List.intercalate (c :: sep) ws) = ws := by
  induction ws with
  | nil => exact absurd rfl hne
  | cons w ws ih =>
    cases ws with
    | nil => simpa using splitStr_none (sep := sep) (h w (by simp))
    | cons v ws =>
      rw [List.intercalate_cons_cons, List.append_assoc, splitStr_append (h w (by simp)),
        ih (by simp) (fun u hu => h u (List.mem_cons_of_mem _ hu))]

theorem splitWhitespace_intercalate {sep : List Char} (hsep : sep ≠ []) (hs : ∀ c ∈ sep, isSpaceChar c = true)
    {ws : List (List Char)} (hne : ws ≠ []) (h : ∀ w ∈ ws, w ≠ [] ∧ ∀ c ∈ w, isSpaceChar c = false) :
    splitWhitespace (List.intercalate sep ws) = ws := by
  induction ws with
  | nil => exact absurd rfl hne
  | cons w ws ih =>
    cases ws with
    | nil => simpa using splitWhitespace_word (h w (by simp)).1 (h w (by simp)).2
    | cons v ws =>
      rw [List.intercalate_cons_cons, List.append_assoc, splitWhitespace_append (h w (by simp)).1 (h w (by simp)).2 hsep hs,
        ih (by simp) (fun u hu => h u (List.mem_cons_of_mem _ hu))]

theorem intercalate_head {sep w : List Char} (ws : List (List Char)) (hw : w ≠ []) :
    (List.intercalate sep (w :: ws)).head? = w.head? := by
  cases ws with
  | nil => simp
  | cons v ws =>
    rw [List.intercalate_cons_cons]
    obtain ⟨c, w, rfl⟩ := List.exists_cons_of_ne_nil hw
    rfl

theorem intercalate_last {sep : List Char} {ws : List (List Char)} (hne : ws ≠ []) (h : ∀ w ∈ ws, w ≠ []) :
    ∃ w ∈ ws, (List.intercalate sep ws).getLast? = w.getLast? := by
  induction ws with
  | nil => exact absurd rfl hne
  | cons w ws ih =>
    cases ws with
    | nil => exact ⟨w, by simp, by simp⟩
    | cons v ws =>
      obtain ⟨u, hu, e⟩ := ih (by simp) (fun u hu => h u (List.mem_cons_of_mem _ hu))
      refine ⟨u, List.mem_cons_of_mem _ hu, ?_⟩
      rw [List.intercalate_cons_cons, List.append_assoc, List.getLast?_append, List.getLast?_append, e]
      obtain ⟨x, hx⟩ : ∃ x, u.getLast? = some x := by
        cases hq : u.getLast? with
        | none => exact absurd (List.getLast?_eq_none_iff.1 hq) (h u (List.mem_cons_of_mem _ hu))
        | some x => exact ⟨x, rfl⟩
      rw [hx]
      rfl

theorem intercalate_mem {sep : List Char} {ws : List (List Char)} {c : Char} (h : c ∈ List.intercalate sep ws) :
    c ∈ sep ∨ ∃ w ∈ ws, c ∈ w := by
  induction ws with
  | nil => simp at h
  | cons w ws ih =>
    cases ws with
    | nil => exact .inr ⟨w, by simp, by simpa using h⟩
    | cons v ws =>
      rw [List.intercalate_cons_cons, List.append_assoc, List.mem_append, List.mem_append] at h
      rcases h with h | h | h
      · exact .inr ⟨w, by simp, h⟩
      · exact .inl h
      · rcases ih h with h | ⟨u, hu, h⟩
        · exact .inl h
        · exact .inr ⟨u, List.mem_cons_of_mem _ hu, h⟩

end Rumpy
