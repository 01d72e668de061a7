import Verif.Spec.Print
import Verif.Model.Print
import Verif.Lemmas.Text
import Verif.Lemmas.Nd
import Mathlib.Tactic.Ring
import Mathlib.Tactic.Linarith
import Mathlib.Tactic.Positivity
/-!
# Lemmas: printing arrays
-/

namespace Rumpy
open Spec

/-! ### The code prints the page -/

theorem withEllipsis_false (edge pos : Nat) (ps : List (List Char)) : withEllipsis edge false pos ps = ps := by
  induction ps generalizing pos with
  | nil => rfl
  | cons p ps ih => simp [withEllipsis, ih]

/-- What the code shows along an axis. -/
theorem display_shown (n : Nat) (truncate : Bool) (g : Nat → List Char) :
    withEllipsis 3 (displayIndices n truncate 3).2 0 ((displayIndices n truncate 3).1.map g) =
      (shownAlong truncate n).map fun
        | none => ['.', '.', '.']
        | some i => g i := by
  unfold displayIndices shownAlong
  by_cases h : truncate = true ∧ 6 < n
  · rw [if_pos (by simp [h.1]; omega), if_pos h]
    obtain ⟨k, rfl⟩ : ∃ k, n = k + 3 := ⟨n - 3, by omega⟩
    simp [List.range_succ, List.range'_succ, withEllipsis]
  · rw [if_neg (by simp only [Bool.and_eq_true, decide_eq_true_eq]; exact fun x => h ⟨x.1, by omega⟩), if_neg h]
    simp [withEllipsis_false, List.map_map, Function.comp_def]

theorem display_shown_flatMap {β : Type} (n : Nat) (truncate : Bool) (g : Nat → List β) :
    (displayIndices n truncate 3).1.flatMap g =
      (shownAlong truncate n).flatMap fun
        | none => []
        | some i => g i := by
  unfold displayIndices shownAlong
  by_cases h : truncate = true ∧ 6 < n
  · rw [if_pos (by simp [h.1]; omega), if_pos h]
    obtain ⟨k, rfl⟩ : ∃ k, n = k + 3 := ⟨n - 3, by omega⟩
    simp [List.range_succ, List.range'_succ]
  · rw [if_neg (by simp only [Bool.and_eq_true, decide_eq_true_eq]; exact fun x => h ⟨x.1, by omega⟩), if_neg h]
    simp [List.flatMap_map]

/-- The mark after an element: nothing, or a comma. -/
def IsComma (c : List Char) : Prop := c = [] ∨ c = [',']

theorem trimEnd_comma {comma : List Char} (h : IsComma comma) : trimEnd (comma ++ [' ']) = comma := by
  rcases h with rfl | rfl <;> rfl

theorem formatRecursive_page (v : View) (text : Int → List Char) {comma : List Char} (hc : IsComma comma)
    (truncate : Bool) (width base : Nat) (dims pre : List Nat) :
    formatRecursive v text (comma ++ [' ']) truncate 3 width base dims pre =
      page truncate comma width (base + pre.length) dims fun idx => text (v.addr (pre ++ idx)) := by
  induction dims generalizing pre with
  | nil => simp [formatRecursive, page, padLeft, alignRight]
  | cons n s ih =>
    have hp : ∀ i : Nat, formatRecursive v text (comma ++ [' ']) truncate 3 width base s (pre ++ [i]) =
        page truncate comma width (base + pre.length + 1) s fun idx => text (v.addr (pre ++ i :: idx)) := by
      intro i
      rw [ih]
      simp [Nat.add_assoc]
    have hgap : partSep (comma ++ [' ']) s.length pre.length base = gapBefore comma (base + pre.length) s := by
      match s with
      | [] => simp [partSep, gapBefore]
      | [_] => simp [partSep, gapBefore, trimEnd_comma hc]
      | _ :: _ :: _ => simp [partSep, gapBefore, trimEnd_comma hc]
    simp only [formatRecursive, page]
    rw [hgap, display_shown]
    simp only [hp]
    simp only [List.cons_append, List.nil_append, List.cons.injEq, true_and]
    congr 2

theorem collectElements_shown (v : View) (text : Int → List Char) (truncate : Bool) (dims pre : List Nat) :
    collectElements v text truncate 3 dims pre =
      (shownIndices truncate dims).map fun idx => text (v.addr (pre ++ idx)) := by
  match dims with
  | [] => simp [collectElements, shownIndices]
  | [n] =>
    have := display_shown_flatMap n truncate fun i => [text (v.addr (pre ++ [i]))]
    simp only [collectElements, shownIndices, List.map_flatMap]
    rw [List.map_eq_flatMap, this]
    congr 1
    funext o
    cases o <;> simp
  | n :: m :: dims =>
    simp only [collectElements]
    rw [display_shown_flatMap, shownIndices, List.map_flatMap]
    congr 1
    funext o
    cases o with
    | none => simp
    | some i =>
      simp only [List.map_map]
      rw [collectElements_shown v text truncate (m :: dims) (pre ++ [i])]
      simp [Function.comp_def]

/-! ### Reading the page -/

theorem readTokens_word {s : List Char} (hs : ∀ c ∈ s, endsWord c = false) (w rest : List Char) :
    readTokens w (s ++ rest) = readTokens (w ++ s) rest := by
  induction s generalizing w with
  | nil => simp
  | cons c s ih =>
    have hc := hs c List.mem_cons_self
    simp only [endsWord, Bool.or_eq_false_iff, decide_eq_false_iff_not] at hc
    rw [List.cons_append, readTokens, if_neg hc.1.2, if_neg hc.2, if_neg (by simp [hc.1.1]),
      ih (fun c h => hs c (List.mem_cons_of_mem _ h))]
    simp

theorem readTokens_end (c : Char) (hc : endsWord c = true) (w rest : List Char) :
    readTokens w (c :: rest) = wordOf w ++ readTokens [] (c :: rest) := by
  simp only [readTokens]
  split
  · simp [wordOf]
  split
  · simp [wordOf]
  rw [if_pos, if_pos]
  · simp [wordOf]
  all_goals simp_all [endsWord]

/-- A text ends where a character that ends words follows. -/
theorem readTokens_append (x : List Char) (c : Char) (hc : endsWord c = true) (w y : List Char) :
    readTokens w (x ++ c :: y) = readTokens w x ++ readTokens [] (c :: y) := by
  induction x generalizing w with
  | nil => simpa [readTokens] using readTokens_end c hc w y
  | cons d x ih =>
    simp only [List.cons_append, readTokens, ih]
    split
    · simp
    split
    · simp
    split <;> simp

theorem tokens_append (x : List Char) (c : Char) (hc : endsWord c = true) (y : List Char) :
    tokens (x ++ c :: y) = tokens x ++ tokens (c :: y) := readTokens_append x c hc [] y

theorem tokens_blank {b : List Char} (hb : ∀ c ∈ b, isBlank c = true) (y : List Char) : tokens (b ++ y) = tokens y := by
  induction b with
  | nil => rfl
  | cons c b ih =>
    have hc := hb c List.mem_cons_self
    have h1 : c ≠ '[' := by rintro rfl; exact absurd hc (by decide)
    have h2 : c ≠ ']' := by rintro rfl; exact absurd hc (by decide)
    rw [← ih fun c h => hb c (List.mem_cons_of_mem _ h)]
    simp [tokens, readTokens, h1, h2, hc, wordOf]

theorem tokens_word {s : List Char} (h : IsWord s) : tokens s = [.word s] := by
  have := readTokens_word h.2 [] []
  simpa [tokens, readTokens, wordOf, h.1] using this

theorem tokens_alignRight {s : List Char} (h : IsWord s) (width : Nat) : tokens (alignRight width s) = [.word s] := by
  rw [alignRight, tokens_blank (by simp [isBlank]), tokens_word h]

/-- Texts with a gap between them. -/
theorem tokens_intercalate {gap : List Char} (hg : gap ≠ []) (hb : ∀ c ∈ gap, isBlank c = true) (items : List (List Char)) :
    tokens (gap.intercalate items) = items.flatMap tokens := by
  induction items with
  | nil => simp [tokens, readTokens, wordOf]
  | cons x xs ih =>
    cases xs with
    | nil => simp
    | cons y ys =>
      rw [List.intercalate_cons_cons]
      obtain ⟨c, g, rfl⟩ : ∃ c g, gap = c :: g := by cases gap with
        | nil => exact absurd rfl hg
        | cons c g => exact ⟨c, g, rfl⟩
      have hc : endsWord c = true := by simp [endsWord, hb c List.mem_cons_self]
      rw [List.append_assoc, List.cons_append, tokens_append _ _ hc, ← List.cons_append, tokens_blank hb, ih]
      simp

theorem tokens_brackets (x : List Char) : tokens ('[' :: x ++ [']']) = .open :: tokens x ++ [.close] := by
  rw [tokens_append _ ']' (by decide)]
  simp [tokens, readTokens, wordOf]

theorem shownAlong_lt {abridged : Bool} {n i : Nat} (h : some i ∈ shownAlong abridged n) : i < n := by
  unfold shownAlong at h
  split at h
  · simp at h; omega
  · simpa using h

theorem gapBefore_ne_nil (comma : List Char) (indent : Nat) (s : List Nat) : gapBefore comma indent s ≠ [] := by
  match s with
  | [] => simp [gapBefore]
  | [_] => simp [gapBefore]
  | _ :: _ :: _ => simp [gapBefore]

theorem gapBefore_blank {comma : List Char} (hc : IsComma comma) (indent : Nat) (s : List Nat) :
    ∀ c ∈ gapBefore comma indent s, isBlank c = true := by
  have hblank : ∀ c ∈ comma, isBlank c = true := by rcases hc with rfl | rfl <;> simp [isBlank]
  have hsp : isBlank ' ' = true := by decide
  have hnl : isBlank '\n' = true := by decide
  match s with
  | [] => simp only [gapBefore, List.mem_append, List.mem_singleton]; rintro c (h | rfl); exacts [hblank _ h, hsp]
  | [_] =>
    simp only [gapBefore, List.mem_append, List.mem_cons, List.mem_replicate]
    rintro c (h | rfl | ⟨_, rfl⟩)
    exacts [hblank _ h, hnl, hsp]
  | _ :: _ :: _ =>
    simp only [gapBefore, List.mem_append, List.mem_cons, List.mem_replicate]
    rintro c (h | rfl | rfl | ⟨_, rfl⟩)
    exacts [hblank _ h, hnl, hnl, hsp]

theorem tokens_page {abridged : Bool} {comma : List Char} (hc : IsComma comma) (width indent : Nat) (s : List Nat)
    (f : List Nat → List Char) (hf : ∀ idx, InShape s idx → IsWord (f idx)) :
    tokens (page abridged comma width indent s f) = nested abridged s f := by
  induction s generalizing indent f with
  | nil => simp only [page, nested]; exact tokens_alignRight (hf [] trivial) _
  | cons n s ih =>
    simp only [page, nested]
    rw [tokens_brackets, tokens_intercalate, List.flatMap_map]
    · congr 2
      refine List.flatMap_congr fun o ho => ?_
      cases o with
      | none => exact tokens_word (s := ['.', '.', '.']) (by decide)
      | some i => exact ih _ _ fun idx hi => hf _ ⟨shownAlong_lt ho, hi⟩
    · exact gapBefore_ne_nil _ _ _
    · exact gapBefore_blank hc _ _

/-! ### Nothing is lost -/

theorem nested_head (abridged : Bool) (s : List Nat) (f : List Nat → List Char) :
    ∃ t r, nested abridged s f = t :: r ∧ t ≠ .close := by
  cases s with
  | nil => exact ⟨_, _, rfl, by simp⟩
  | cons n s => exact ⟨_, _, rfl, by simp⟩

/-- The words and brackets of a complete listing determine the shape and every element, whatever
follows. -/
theorem nested_injective (s s' : List Nat) (f f' : List Nat → List Char) (r r' : List Token)
    (hs : ∀ n ∈ s, 0 < n) (hs' : ∀ n ∈ s', 0 < n)
    (h : nested false s f ++ r = nested false s' f' ++ r') :
    s = s' ∧ r = r' ∧ ∀ idx, InShape s idx → f idx = f' idx := by
  induction s generalizing s' f f' r r' with
  | nil =>
    cases s' with
    | nil =>
      simp only [nested, List.singleton_append, List.cons.injEq, Token.word.injEq] at h
      refine ⟨rfl, h.2, fun idx hi => ?_⟩
      cases idx with
      | nil => exact h.1
      | cons => exact hi.elim
    | cons => simp [nested] at h
  | cons n s ih =>
    cases s' with
    | nil => simp [nested] at h
    | cons m s' =>
      have hs1 : ∀ k ∈ s, 0 < k := fun k hk => hs k (List.mem_cons_of_mem _ hk)
      have hs2 : ∀ k ∈ s', 0 < k := fun k hk => hs' k (List.mem_cons_of_mem _ hk)
      simp only [nested, shownAlong, Bool.false_eq_true, false_and, if_false, List.flatMap_map, List.cons_append,
        List.append_assoc, List.nil_append, List.cons.injEq, true_and] at h
      -- the items from position `k` on
      have items : ∀ (p q k : Nat) (r r' : List Token),
          ((List.range' k p).flatMap fun i => nested false s fun idx => f (i :: idx)) ++ .close :: r =
            ((List.range' k q).flatMap fun i => nested false s' fun idx => f' (i :: idx)) ++ .close :: r' →
          p = q ∧ r = r' ∧ ((p ≠ 0) → s = s') ∧
            ∀ i, k ≤ i → i < k + p → ∀ idx, InShape s idx → f (i :: idx) = f' (i :: idx) := by
        intro p
        induction p with
        | zero =>
          intro q k r r' h
          cases q with
          | zero => simp at h; exact ⟨rfl, h, by simp, by intro i h1 h2; omega⟩
          | succ q =>
            obtain ⟨t, u, hu, ht⟩ := nested_head false s' fun idx => f' (k :: idx)
            simp [List.range'_succ, hu] at h
            exact absurd h.1.symm ht
        | succ p ihp =>
          intro q k r r' h
          cases q with
          | zero =>
            obtain ⟨t, u, hu, ht⟩ := nested_head false s fun idx => f (k :: idx)
            simp [List.range'_succ, hu] at h
            exact absurd h.1 ht
          | succ q =>
            simp only [List.range'_succ, List.flatMap_cons, List.append_assoc] at h
            obtain ⟨e1, e2, e3⟩ := ih s' _ _ _ _ hs1 hs2 h
            obtain ⟨e4, e5, _, e6⟩ := ihp q (k + 1) r r' e2
            refine ⟨by omega, e5, fun _ => e1, fun i h1 h2 idx hi => ?_⟩
            by_cases hik : i = k
            · subst hik; exact e3 idx hi
            · exact e6 i (by omega) (by omega) idx hi
      rw [List.range_eq_range', List.range_eq_range'] at h
      obtain ⟨e1, e2, e3, e4⟩ := items n m 0 r r' h
      have hn : n ≠ 0 := by have := hs n List.mem_cons_self; omega
      refine ⟨by rw [e1, e3 hn], e2, fun idx hi => ?_⟩
      cases idx with
      | nil => exact hi.elim
      | cons i idx => exact e4 i (by omega) (by have := hi.1; omega) idx hi.2

/-! ### Decimal texts -/

theorem isDigit_ge {c : Char} (h : c.isDigit = true) : 48 ≤ c.toNat := by
  simp only [Char.isDigit, Bool.and_eq_true, decide_eq_true_eq] at h
  exact UInt32.le_iff_toNat_le.1 h.1

theorem foldl_digits (l : List Char) (h : ∀ c ∈ l, c.isDigit = true) (n : Nat) :
    l.foldl (fun (n : ℚ) c => 10 * n + ((c.toNat : ℚ) - 48)) n = ((Nat.ofDigitChars 10 l n : Nat) : ℚ) := by
  induction l generalizing n with
  | nil => simp [Nat.ofDigitChars]
  | cons c l ih =>
    have h48 := isDigit_ge (h c List.mem_cons_self)
    have : (10 * (n : ℚ) + ((c.toNat : ℚ) - 48)) = ((10 * n + (c.toNat - '0'.toNat) : Nat) : ℚ) := by
      have e : '0'.toNat = 48 := rfl
      rw [e]
      push_cast [h48]
      ring
    rw [List.foldl_cons, this, ih fun c hc => h c (List.mem_cons_of_mem _ hc)]
    rfl

theorem digitsValue_of {l : List Char} (h : ∀ c ∈ l, c.isDigit = true) :
    digitsValue l = some ((Nat.ofDigitChars 10 l 0 : Nat) : ℚ) := by
  have := foldl_digits l h 0
  rw [digitsValue, if_pos (by simpa using h)]
  simpa using this

theorem ofDigitChars_showNatPad (w n : Nat) : Nat.ofDigitChars 10 (showNatPad w n) 0 = n := by
  have h := parseDigits_showNatPad w n
  unfold parseDigits at h
  split at h
  · cases h
  · simpa using h

theorem ofDigitChars_zeros_right (l : List Char) (k : Nat) :
    Nat.ofDigitChars 10 (l ++ List.replicate k '0') 0 = Nat.ofDigitChars 10 l 0 * 10 ^ k := by
  rw [Nat.ofDigitChars_append]
  generalize Nat.ofDigitChars 10 l 0 = n
  induction k generalizing n with
  | zero => simp [Nat.ofDigitChars]
  | succ k ih =>
    rw [List.replicate_succ]
    have : Nat.ofDigitChars 10 ('0' :: List.replicate k '0') n = Nat.ofDigitChars 10 (List.replicate k '0') (10 * n) := by
      simp [Nat.ofDigitChars]
    rw [this, ih]
    ring

/-- Taking off the zeros at the end. -/
theorem trimZeros_append (y : List Char) : ∃ k, y = trimZeros y ++ List.replicate k '0' := by
  refine ⟨(y.reverse.takeWhile (· = '0')).length, ?_⟩
  have h := List.takeWhile_append_dropWhile (p := fun c => decide (c = '0')) (l := y.reverse)
  have h2 : y.reverse.takeWhile (· = '0') = List.replicate (y.reverse.takeWhile (· = '0')).length '0' := by
    rw [List.eq_replicate_iff]
    refine ⟨rfl, fun c hc => ?_⟩
    simpa using List.all_takeWhile (p := fun c => decide (c = '0')) (l := y.reverse) |> (List.all_eq_true.1 · c hc)
  have h3 := congrArg List.reverse h
  rw [List.reverse_append, List.reverse_reverse] at h3
  rw [trimZeros]
  conv_lhs => rw [← h3, h2]
  simp

theorem trimZeros_point (x y : List Char) : trimZeros (x ++ '.' :: y) = x ++ '.' :: trimZeros y := by
  have : (x ++ '.' :: y).reverse = y.reverse ++ '.' :: x.reverse := by simp
  rw [trimZeros, this, trimZeros]
  rw [List.dropWhile_append]
  split
  · rename_i h
    have : y.reverse.dropWhile (· = '0') = [] := by simpa using h
    simp [this]
  · simp

theorem unsignedValue_point {x y : List Char} (hx : ∀ c ∈ x, c.isDigit = true) (hx0 : x ≠ [])
    (hy : ∀ c ∈ y, c.isDigit = true) :
    unsignedValue (x ++ '.' :: trimZeros y) =
      some ((Nat.ofDigitChars 10 x 0 : ℚ) + (Nat.ofDigitChars 10 y 0 : ℚ) / 10 ^ y.length) := by
  have hne : ∀ c ∈ x, decide (c ≠ '.') = true := by
    intro c hc
    have := hx c hc
    simp only [decide_eq_true_eq]
    rintro rfl
    exact absurd this (by decide)
  have h1 : (x ++ '.' :: trimZeros y).takeWhile (· ≠ '.') = x := by
    rw [List.takeWhile_append_of_pos hne]; simp
  have h2 : ((x ++ '.' :: trimZeros y).dropWhile (· ≠ '.')).drop 1 = trimZeros y := by
    rw [List.dropWhile_append_of_pos hne]; simp
  obtain ⟨k, hk⟩ := trimZeros_append y
  have hy' : ∀ c ∈ trimZeros y, c.isDigit = true := fun c hc => hy c (by rw [hk]; exact List.mem_append_left _ hc)
  have e : (Nat.ofDigitChars 10 (trimZeros y) 0 : ℚ) / 10 ^ (trimZeros y).length =
      (Nat.ofDigitChars 10 y 0 : ℚ) / 10 ^ y.length := by
    have e1 : Nat.ofDigitChars 10 y 0 = Nat.ofDigitChars 10 (trimZeros y) 0 * 10 ^ k := by
      rw [← ofDigitChars_zeros_right, ← hk]
    have e2 : y.length = (trimZeros y).length + k := by
      conv_lhs => rw [hk]
      simp
    rw [e1, e2]
    push_cast
    rw [pow_add, mul_div_mul_right _ _ (by positivity)]
  simp only [unsignedValue, h1, h2, if_neg hx0, digitsValue_of hx, digitsValue_of hy', Option.bind_some, Option.map_some, e]

/-- The rounding in `{:.p}`. -/
theorem fixed_round (t : ℚ) (ht : 0 ≤ t) (z : Nat)
    (hz : z = if t - (⌊t⌋.toNat : ℚ) < 1 / 2 then ⌊t⌋.toNat else if 1 / 2 < t - (⌊t⌋.toNat : ℚ) then ⌊t⌋.toNat + 1
      else if ⌊t⌋.toNat % 2 = 0 then ⌊t⌋.toNat else ⌊t⌋.toNat + 1) :
    |(z : ℚ) - t| ≤ 1 / 2 := by
  have h0 : 0 ≤ ⌊t⌋ := Int.floor_nonneg.2 ht
  have hl : ((⌊t⌋.toNat : Nat) : ℚ) = (⌊t⌋ : ℚ) := by
    have : ((⌊t⌋.toNat : Nat) : Int) = ⌊t⌋ := Int.toNat_of_nonneg h0
    exact_mod_cast this
  have h1 := Int.floor_le t
  have h2 := Int.lt_floor_add_one t
  rw [← hl] at h1 h2
  subst hz
  rw [abs_le]
  split
  · constructor <;> linarith
  split
  · push_cast; constructor <;> linarith
  split
  · constructor <;> linarith
  · push_cast; constructor <;> linarith

end Rumpy
