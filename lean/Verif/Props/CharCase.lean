import Verif.Spec.CharCase
import Verif.Model.CharCase
import Verif.Lemmas.CharCase
import Verif.Props.Char
/-!
# C94: letter case and kinds of characters in string arrays
-/

namespace Props
open Spec Rumpy

/-! ### A small database for the examples -/

/-- ASCII, the sharp s, the sigmas, a Roman number, a superscript two, an Arabic three and a Chinese five, with the entries
the examples use. -/
def someUnicode : Unicode where
  upper c := if asciiLower c then [Char.ofNat (c.toNat - 32)] else if c = 'ß' then ['S', 'S'] else if c = 'σ' ∨ c = 'ς' then ['Σ'] else if c = 'ǆ' then ['Ǆ'] else [c]
  lower c := if asciiUpper c then [Char.ofNat (c.toNat + 32)] else if c = 'Σ' then ['σ'] else if c = 'Ǆ' ∨ c = 'ǅ' then ['ǆ'] else [c]
  title c := if asciiLower c then [Char.ofNat (c.toNat - 32)] else if c = 'ß' then ['S', 's'] else if c = 'σ' ∨ c = 'ς' then ['Σ'] else if c = 'ǆ' ∨ c = 'Ǆ' then ['ǅ'] else [c]
  isUpper c := asciiUpper c || c == 'Σ' || c == 'Ⅷ' || c == 'Ǆ'
  isLower c := asciiLower c || c == 'ß' || c == 'σ' || c == 'ς' || c == 'ǆ'
  isTitle c := c == 'ǅ'
  ignorable c := c == '\''
  letter c := asciiUpper c || asciiLower c || c == 'ß' || c == 'σ' || c == 'ς' || c == 'Σ' || c == '五' || c == 'Ǆ' || c == 'ǅ' || c == 'ǆ'
  alphabetic c := asciiUpper c || asciiLower c || c == 'ß' || c == 'σ' || c == 'ς' || c == 'Σ' || c == '五' || c == 'Ⅷ' || c == 'Ǆ' || c == 'ǅ' || c == 'ǆ'
  decimal c := asciiDigit c || c == '٣'
  digit c := asciiDigit c || c == '²' || c == '٣'
  numeric c := asciiDigit c || c == '²' || c == '五' || c == 'Ⅷ' || c == '٣'
  number c := asciiDigit c || c == '²' || c == 'Ⅷ' || c == '٣'

theorem ne_of_ascii {c d : Char} (h : c.toNat < 128) (hd : 128 ≤ d.toNat) : c ≠ d := by
  rintro rfl; omega

theorem someUnicode_ascii : someUnicode.Ascii := by
  have n : ∀ c : Char, c.toNat < 128 → ∀ d : Char, 128 ≤ d.toNat → c ≠ d := fun c h d hd => ne_of_ascii h hd
  have e1 : 128 ≤ 'ß'.toNat := by decide
  have e2 : 128 ≤ 'σ'.toNat := by decide
  have e3 : 128 ≤ 'ς'.toNat := by decide
  have e4 : 128 ≤ 'Σ'.toNat := by decide
  have e5 : 128 ≤ 'Ⅷ'.toNat := by decide
  have e6 : 128 ≤ '²'.toNat := by decide
  have e7 : 128 ≤ '五'.toNat := by decide
  have e8 : 128 ≤ '٣'.toNat := by decide
  have e9 : 128 ≤ 'ǅ'.toNat := by decide
  have e10 : 128 ≤ 'Ǆ'.toNat := by decide
  have e11 : 128 ≤ 'ǆ'.toNat := by decide
  constructor <;> intro c h <;>
    simp only [someUnicode, n c h _ e1, n c h _ e2, n c h _ e3, n c h _ e4, n c h _ e5, n c h _ e6, n c h _ e7, n c h _ e8,
      n c h _ e9, n c h _ e10, n c h _ e11, beq_eq_false_iff_ne.2 (n c h _ e1), beq_eq_false_iff_ne.2 (n c h _ e2),
      beq_eq_false_iff_ne.2 (n c h _ e3), beq_eq_false_iff_ne.2 (n c h _ e4), beq_eq_false_iff_ne.2 (n c h _ e5),
      beq_eq_false_iff_ne.2 (n c h _ e6), beq_eq_false_iff_ne.2 (n c h _ e7), beq_eq_false_iff_ne.2 (n c h _ e8),
      beq_eq_false_iff_ne.2 (n c h _ e9), beq_eq_false_iff_ne.2 (n c h _ e10), beq_eq_false_iff_ne.2 (n c h _ e11),
      or_self, if_false, Bool.or_false] <;>
    split <;> rfl

/-! ### Case conversion -/

/-- All characters of all texts are simple. -/
def AllSimple (U : Unicode) (t : Nd (List Char)) : Prop := ∀ idx, InShape t.shape idx → ∀ c ∈ t.get idx, U.Simple c

theorem mem_of_at {s : List Char} {i : Nat} {c : Char} (h : s[i]? = some c) : c ∈ s := List.mem_of_getElem? h

theorem lowerAt_simple {U : Unicode} {s : List Char} {c : Char} {i : Nat} (h : U.Simple c) : lowerAt U s c i = U.lower c := by
  unfold lowerAt
  rw [if_neg h.sigma]

/-- A transformation that follows a Python method on every simple character. -/
theorem transform_simple {U : Unicode} {a : Strs} {t : Nd (List Char)} (hwf : a.view.WF) (h : a.Holds t) (hs : AllSimple U t)
    (f : Nat → Nat) (py : List Char → Char → Nat → List Char)
    (hf : ∀ s c i, c ∈ s → U.Simple c → c ≠ nul → ∃ u, py s c i = [u] ∧ u ≠ nul ∧ f c.toNat = u.toNat) :
    (transformOf a f).strs.Holds ⟨t.shape, fun idx => eachAt (t.get idx) (py (t.get idx))⟩ := by
  apply transformOf_holds hwf h
  intro idx hi
  apply eachAt_codes (py (t.get idx)) (t.get idx) _ 0 (by simp)
  intro i c hc
  have hm := mem_of_at hc
  have hn : c ≠ nul := by
    rintro rfl
    exact noNul_of_holds h hi hm
  obtain ⟨u, h1, h2, h3⟩ := hf (t.get idx) c (0 + i) hm (hs idx hi c hm) hn
  exact ⟨u, h1, h2, by rw [List.getElem?_map, hc, Option.map_some, h3]⟩

/-- C94.  `upper` is Python's `str.upper` for simple characters, in arrays of every layout.  (Missing: characters with a
longer mapping, see `C94_upper_counterexample`.) -/
theorem C94_upper_partial (U : Unicode) (hU : U.Ascii) (a : Strs) (t : Nd (List Char)) (hwf : a.view.WF) (h : a.Holds t)
    (hs : AllSimple U t) : (charUpper U a).strs.Holds ⟨t.shape, fun idx => pyUpper U (t.get idx)⟩ := by
  refine transform_simple hwf h hs _ (fun _ c _ => U.upper c) ?_
  intro s c i _ hc hn
  obtain ⟨u, h1, h2⟩ := hc.upper
  refine ⟨u, h1, h2, ?_⟩
  rw [← cpUpper_eq hU h1]
  split
  · rename_i hl
    unfold cpUpper
    rw [if_pos hl]
  · split
    · rename_i hl hs
      have := hU.upper c (by omega)
      have e : asciiLower c = false := decide_eq_false hl
      rw [e] at this
      rw [cpUpper_eq hU (u := c) this]
    · rfl

/-- C94.  `lower` is Python's `str.lower` for simple characters. -/
theorem C94_lower_partial (U : Unicode) (hU : U.Ascii) (a : Strs) (t : Nd (List Char)) (hwf : a.view.WF) (h : a.Holds t)
    (hs : AllSimple U t) : (charLower U a).strs.Holds ⟨t.shape, fun idx => pyLower U (t.get idx)⟩ := by
  refine transform_simple hwf h hs _ (fun s c i => lowerAt U s c i) ?_
  intro s c i _ hc hn
  obtain ⟨u, h1, h2⟩ := hc.lower
  refine ⟨u, by rw [lowerAt_simple hc, h1], h2, ?_⟩
  rw [← cpLower_eq hU h1]
  split
  · rename_i hl
    unfold cpLower
    rw [if_pos hl]
  · split
    · rename_i hl hs
      have := hU.lower c (by omega)
      have e : asciiUpper c = false := decide_eq_false hl
      rw [e] at this
      rw [cpLower_eq hU (u := c) this]
    · rfl

/-- C94.  `swapcase` is Python's `str.swapcase` for simple characters. -/
theorem C94_swapcase_partial (U : Unicode) (hU : U.Ascii) (a : Strs) (t : Nd (List Char)) (hwf : a.view.WF) (h : a.Holds t)
    (hs : AllSimple U t) : (charSwapcase U a).strs.Holds ⟨t.shape, fun idx => pySwapcase U (t.get idx)⟩ := by
  refine transform_simple hwf h hs _ (fun s c i => if U.isUpper c then lowerAt U s c i else if U.isLower c then U.upper c else [c]) ?_
  intro s c i _ hc hn
  rw [cpIsUpper_eq hU, cpIsLower_eq hU]
  split
  · obtain ⟨u, h1, h2⟩ := hc.lower
    exact ⟨u, by rw [lowerAt_simple hc, h1], h2, cpLower_eq hU h1⟩
  · split
    · obtain ⟨u, h1, h2⟩ := hc.upper
      exact ⟨u, h1, h2, cpUpper_eq hU h1⟩
    · exact ⟨c, rfl, hn, rfl⟩

/-- Strings computed from the characters of an element, one for one. -/
theorem strings_simple {U : Unicode} {a : Strs} {t : Nd (List Char)} (hwf : a.view.WF) (h : a.Holds t) (hs : AllSimple U t)
    (f : (Nat → Nat) → List Nat) (py : List Char → Char → Nat → List Char)
    (hf : ∀ src s, CellOf src a.width (s.map Char.toNat) → (∀ c ∈ s, U.Simple c) → (f src).length = s.length ∧
      ∀ (i : Nat) c, s[i]? = some c → ∃ u, py s c i = [u] ∧ u ≠ nul ∧ (f src)[i]? = some u.toNat) :
    (stringsOf a a.width f).strs.Holds ⟨t.shape, fun idx => eachAt (t.get idx) (py (t.get idx))⟩ := by
  have key : ∀ idx, InShape t.shape idx → f (a.cell (a.view.addr idx)) = (eachAt (t.get idx) (py (t.get idx))).map Char.toNat ∧
      NoNul (eachAt (t.get idx) (py (t.get idx))) ∧ (eachAt (t.get idx) (py (t.get idx))).length ≤ a.width := by
    intro idx hi
    obtain ⟨hl, hc⟩ := hf _ _ (h.2.2.2 idx hi) (hs idx hi)
    obtain ⟨e1, e2⟩ := eachAt_codes (py (t.get idx)) (t.get idx) _ 0 hl (by
      intro i c hi
      rw [Nat.zero_add]
      exact hc i c hi)
    refine ⟨e1, e2, ?_⟩
    have := congrArg List.length e1
    rw [List.length_map, hl] at this
    have hw := length_of_holds h hi
    unfold eachAt
    omega
  rw [← h.2.2.1] at key ⊢
  exact stringsOf_holds hwf h.2.1 (fun idx hi => (key idx hi).1) fun idx hi => ⟨(key idx hi).2.2, (key idx hi).2.1⟩

/-- C94.  `capitalize` is Python's `str.capitalize` for simple characters. -/
theorem C94_capitalize_partial (U : Unicode) (hU : U.Ascii) (a : Strs) (t : Nd (List Char)) (hwf : a.view.WF) (h : a.Holds t)
    (hs : AllSimple U t) : (charCapitalize U a).strs.Holds ⟨t.shape, fun idx => pyCapitalize U (t.get idx)⟩ := by
  refine strings_simple hwf h hs _ (fun s c i => if i = 0 then U.title c else lowerAt U s c i) ?_
  intro src s hcell hsimple
  unfold capitalizeCell
  dsimp only
  rw [hcell.strlen]
  cases s with
  | nil => simp
  | cons d s =>
    rw [if_pos (by simp)]
    refine ⟨by simp, ?_⟩
    intro i c hi
    have hm := hsimple c (mem_of_at hi)
    cases i with
    | zero =>
      obtain rfl : d = c := by simpa using hi
      obtain ⟨u, h1, h2⟩ := hm.upper
      refine ⟨u, by rw [if_pos rfl, hm.title, h1], h2, ?_⟩
      have := hcell.at (i := 0) (by simp)
      simp only [List.getElem_cons_zero] at this
      rw [this, cpUpper_eq hU h1]
      rfl
    | succ i =>
      obtain ⟨u, h1, h2⟩ := hm.lower
      refine ⟨u, by rw [if_neg (by omega), lowerAt_simple hm, h1], h2, ?_⟩
      have hi' : s[i]? = some c := by simpa using hi
      have hlt : i < s.length := by
        rcases Nat.lt_or_ge i s.length with h | h
        · exact h
        · rw [List.getElem?_eq_none h] at hi'; cases hi'
      have := hcell.at (i := i + 1) (by simpa using hlt)
      simp only [List.getElem_cons_succ] at this
      rw [List.getElem?_cons_succ, List.getElem?_map]
      rw [List.getElem?_eq_getElem hlt] at hi'
      have hr : (List.range' 1 ((d :: s).length - 1))[i]? = some (i + 1) := by
        rw [List.getElem?_range' (by simpa using hlt)]
        simp; omega
      rw [hr, Option.map_some, this, Option.some.inj hi', cpLower_eq hU h1]

theorem cpIsCased_eq {U : Unicode} (hU : U.Ascii) {c : Char} (h : U.isTitle c = false) : cpIsCased U c.toNat = U.cased c := by
  unfold cpIsCased Unicode.cased
  rw [cpIsUpper_eq hU, cpIsLower_eq hU, h, Bool.or_false]

/-- C94.  `title` is Python's `str.title` for simple characters. -/
theorem C94_title_partial (U : Unicode) (hU : U.Ascii) (a : Strs) (t : Nd (List Char)) (hwf : a.view.WF) (h : a.Holds t)
    (hs : AllSimple U t) : (charTitle U a).strs.Holds ⟨t.shape, fun idx => pyTitle U (t.get idx)⟩ := by
  refine strings_simple hwf h hs _ (fun s c i => if prevCased U s i then lowerAt U s c i else U.title c) ?_
  intro src s hcell hsimple
  rw [hcell.cps]
  refine ⟨by rw [titleLoop_length, List.length_map], ?_⟩
  intro i c hi
  have hm := hsimple c (mem_of_at hi)
  have ht := titleLoop_getElem U (s.map Char.toNat) false i c.toNat (by rw [List.getElem?_map, hi]; rfl)
  rw [ht]
  have hprev : (if i = 0 then false else ((s.map Char.toNat)[i - 1]?).any (cpIsCased U)) = prevCased U s i := by
    unfold prevCased
    by_cases h0 : i = 0
    · simp [h0]
    · rw [if_neg h0, List.getElem?_map, Option.any_map]
      simp only [h0, ne_eq, not_false_eq_true, decide_true, Bool.true_and]
      cases hp : s[i - 1]? with
      | none => rfl
      | some d => exact cpIsCased_eq hU (hsimple d (mem_of_at hp)).isTitle
  rw [hprev, cpIsCased_eq hU hm.isTitle]
  obtain ⟨u, u1, u2⟩ := hm.upper
  obtain ⟨l, l1, l2⟩ := hm.lower
  by_cases hc : U.cased c = true
  · rw [if_pos hc]
    split
    · exact ⟨l, by rw [lowerAt_simple hm, l1], l2, by rw [cpLower_eq hU l1]⟩
    · exact ⟨u, by rw [hm.title, u1], u2, by rw [cpUpper_eq hU u1]⟩
  · rw [if_neg hc]
    have hn : U.isUpper c = false ∧ U.isLower c = false := by
      unfold Unicode.cased at hc
      cases h1 : U.isUpper c <;> cases h2 : U.isLower c <;> simp [h1, h2] at hc ⊢
    obtain ⟨k1, k2⟩ := hm.caseless hn.1 hn.2
    have hcn : c ≠ nul := by
      intro h0
      rw [k1] at u1
      have : c = u := by simpa using u1
      exact u2 (this ▸ h0)
    split
    · exact ⟨c, by rw [lowerAt_simple hm, k2], hcn, rfl⟩
    · exact ⟨c, by rw [hm.title, k1], hcn, rfl⟩

/-- All ASCII texts are simple, so for them the five functions are Python's. -/
theorem C94_ascii_partial (U : Unicode) (hU : U.Ascii) (a : Strs) (t : Nd (List Char)) (hwf : a.view.WF) (h : a.Holds t)
    (ha : ∀ idx, InShape t.shape idx → ∀ c ∈ t.get idx, c.toNat < 128) :
    (charUpper U a).strs.Holds ⟨t.shape, fun idx => pyUpper U (t.get idx)⟩ ∧
    (charLower U a).strs.Holds ⟨t.shape, fun idx => pyLower U (t.get idx)⟩ ∧
    (charSwapcase U a).strs.Holds ⟨t.shape, fun idx => pySwapcase U (t.get idx)⟩ ∧
    (charCapitalize U a).strs.Holds ⟨t.shape, fun idx => pyCapitalize U (t.get idx)⟩ ∧
    (charTitle U a).strs.Holds ⟨t.shape, fun idx => pyTitle U (t.get idx)⟩ := by
  have hs : AllSimple U t := by
    intro idx hi c hc
    refine ascii_simple hU (ha idx hi c hc) ?_
    rintro rfl
    exact noNul_of_holds h hi hc
  exact ⟨C94_upper_partial U hU a t hwf h hs, C94_lower_partial U hU a t hwf h hs, C94_swapcase_partial U hU a t hwf h hs,
    C94_capitalize_partial U hU a t hwf h hs, C94_title_partial U hU a t hwf h hs⟩

/-- A case: a reversed view of two texts. -/
example : (charTitle someUnicode backwards).strs.Holds ⟨backwardsTexts.shape, fun idx => pyTitle someUnicode (backwardsTexts.get idx)⟩ :=
  (C94_ascii_partial someUnicode someUnicode_ascii _ _ backwards_wf backwards_holds (by
    intro idx hi
    match idx, hi with
    | [0], _ => decide
    | [1], _ => decide)).2.2.2.2

example : (charTitle someUnicode backwards).units = [79, 107, 72, 105] ∧
    pyTitle someUnicode ['i', 't', '\'', 's', ' ', 'A', 'B'] = ['I', 't', '\'', 'S', ' ', 'A', 'b'] := by decide +kernel

/-- C94 fails for a character whose upper case is longer: the sharp s stays. -/
theorem C94_upper_counterexample (U : Unicode) (h : U.upper 'ß' = ['S', 'S']) :
    (charUpper U (fromVec 4 Char.toNat [['ß']] 1).strs).units = ['ß'.toNat] ∧ pyUpper U ['ß'] = ['S', 'S'] := by
  constructor
  · have e : cpUpper U 'ß'.toNat = 'ß'.toNat := by
      unfold cpUpper oneToOne
      rw [if_neg (by decide), charOf_toNat]
      simp [h]
    show [keepZero (fun cp => if 0x61 ≤ cp ∧ cp ≤ 0x7A then cp - 32 else if cp ≤ 0x7F then cp else cpUpper U cp) 'ß'.toNat] = _
    unfold keepZero
    rw [if_neg (by decide)]
    dsimp only
    rw [if_neg (by decide), if_neg (by decide), e]
  · unfold pyUpper eachAt
    simp [h]

/-- C94 fails for a capital sigma at the end of a word, and for titles of characters with a title case of their own. -/
theorem C94_lower_counterexample :
    (charLower someUnicode (fromVec 4 Char.toNat [['A', 'Σ']] 2).strs).units = ['a'.toNat, 'σ'.toNat] ∧
      pyLower someUnicode ['A', 'Σ'] = ['a', 'ς'] ∧
    (charTitle someUnicode (fromVec 4 Char.toNat [['ǆ']] 1).strs).units = ['Ǆ'.toNat] ∧ pyTitle someUnicode ['ǆ'] = ['ǅ'] := by
  decide +kernel

/-! ### Predicates -/

/-- A predicate computed from the characters. -/
theorem predicate_of {a : Strs} {t : Nd (List Char)} (hwf : a.view.WF) (h : a.Holds t) (p : List Nat → Bool) (P : List Char → Prop)
    (hP : ∀ idx, InShape t.shape idx → (p ((t.get idx).map Char.toNat) = true ↔ P (t.get idx))) :
    ∃ r : Nd Bool, (predicateOf a p).Is r ∧ r.shape = t.shape ∧ ∀ idx, InShape t.shape idx → (r.get idx = true ↔ P (t.get idx)) := by
  refine ⟨_, tableOf_is hwf h.2.1 _ _, h.2.2.1, fun idx hi => ?_⟩
  show p _ = true ↔ _
  rw [(h.2.2.2 idx hi).cps]
  exact hP idx hi

theorem allCps_iff {p : Nat → Bool} {P : Char → Prop} {s : List Char} (h : ∀ c ∈ s, p c.toNat = true ↔ P c) :
    allCps p (s.map Char.toNat) = true ↔ AllKind P s := by
  unfold allCps AllKind
  cases s with
  | nil => simp
  | cons d s =>
    simp only [List.map_cons, List.isEmpty_cons, Bool.not_false, Bool.true_and, ne_eq, reduceCtorEq, not_false_eq_true, true_and]
    rw [← List.map_cons, List.all_map, List.all_eq_true]
    exact ⟨fun g c hc => (h c hc).1 (g c hc), fun g c hc => (h c hc).2 (g c hc)⟩

/-- C94.  `isalpha`, for characters that are alphabetic exactly if they are letters.  (Missing: the others, such as Roman
numbers.) -/
theorem C94_isalpha_partial (U : Unicode) (hU : U.Ascii) (a : Strs) (t : Nd (List Char)) (hwf : a.view.WF) (h : a.Holds t)
    (hc : ∀ idx, InShape t.shape idx → ∀ c ∈ t.get idx, 128 ≤ c.toNat → U.alphabetic c = U.letter c) :
    ∃ r : Nd Bool, (charIsalpha U a).Is r ∧ r.shape = t.shape ∧
      ∀ idx, InShape t.shape idx → (r.get idx = true ↔ AllKind (fun c => U.letter c = true) (t.get idx)) := by
  refine predicate_of hwf h _ _ fun idx hi => allCps_iff fun c hm => ?_
  rw [cpIsAlpha_eq hU]
  split
  · rfl
  · rw [hc idx hi c hm (by omega)]

/-- C94.  `isdigit`, for texts without digits beyond ASCII. -/
theorem C94_isdigit_partial (U : Unicode) (hU : U.Ascii) (a : Strs) (t : Nd (List Char)) (hwf : a.view.WF) (h : a.Holds t)
    (hc : ∀ idx, InShape t.shape idx → ∀ c ∈ t.get idx, 128 ≤ c.toNat → U.digit c = false) :
    ∃ r : Nd Bool, (charIsdigit a).Is r ∧ r.shape = t.shape ∧
      ∀ idx, InShape t.shape idx → (r.get idx = true ↔ AllKind (fun c => U.digit c = true) (t.get idx)) := by
  refine predicate_of hwf h _ _ fun idx hi => allCps_iff fun c hm => ?_
  rw [cpIsDigit_eq]
  rcases Nat.lt_or_ge c.toNat 128 with hlt | hge
  · rw [hU.digit c hlt]
  · rw [hc idx hi c hm hge]
    simp only [asciiDigit, decide_eq_true_eq]
    constructor
    · intro h; omega
    · intro h; cases h

/-- C94.  `isdecimal`, for texts without decimal digits beyond ASCII. -/
theorem C94_isdecimal_partial (U : Unicode) (hU : U.Ascii) (a : Strs) (t : Nd (List Char)) (hwf : a.view.WF) (h : a.Holds t)
    (hc : ∀ idx, InShape t.shape idx → ∀ c ∈ t.get idx, 128 ≤ c.toNat → U.decimal c = false) :
    ∃ r : Nd Bool, (charIsdecimal a).Is r ∧ r.shape = t.shape ∧
      ∀ idx, InShape t.shape idx → (r.get idx = true ↔ AllKind (fun c => U.decimal c = true) (t.get idx)) := by
  refine predicate_of hwf h _ _ fun idx hi => allCps_iff fun c hm => ?_
  rw [cpIsDigit_eq]
  rcases Nat.lt_or_ge c.toNat 128 with hlt | hge
  · rw [hU.decimal c hlt]
  · rw [hc idx hi c hm hge]
    simp only [asciiDigit, decide_eq_true_eq]
    constructor
    · intro h; omega
    · intro h; cases h

/-- C94.  `isnumeric`, for characters with a numeric value exactly if they are of a category of numbers. -/
theorem C94_isnumeric_partial (U : Unicode) (hU : U.Ascii) (a : Strs) (t : Nd (List Char)) (hwf : a.view.WF) (h : a.Holds t)
    (hc : ∀ idx, InShape t.shape idx → ∀ c ∈ t.get idx, 128 ≤ c.toNat → U.number c = U.numeric c) :
    ∃ r : Nd Bool, (charIsnumeric U a).Is r ∧ r.shape = t.shape ∧
      ∀ idx, InShape t.shape idx → (r.get idx = true ↔ AllKind (fun c => U.numeric c = true) (t.get idx)) := by
  refine predicate_of hwf h _ _ fun idx hi => allCps_iff fun c hm => ?_
  rw [charTest_eq]
  rcases Nat.lt_or_ge c.toNat 128 with hlt | hge
  · rw [hU.numeric c hlt, hU.number c hlt]
  · rw [hc idx hi c hm hge]

/-- C94.  `isalnum`, for characters beyond ASCII that are alphabetic exactly if they are letters or numeric. -/
theorem C94_isalnum_partial (U : Unicode) (hU : U.Ascii) (a : Strs) (t : Nd (List Char)) (hwf : a.view.WF) (h : a.Holds t)
    (hc : ∀ idx, InShape t.shape idx → ∀ c ∈ t.get idx, 128 ≤ c.toNat → (U.alphabetic c = true ↔ pyAlnum U c)) :
    ∃ r : Nd Bool, (charIsalnum U a).Is r ∧ r.shape = t.shape ∧
      ∀ idx, InShape t.shape idx → (r.get idx = true ↔ AllKind (pyAlnum U) (t.get idx)) := by
  refine predicate_of hwf h _ _ fun idx hi => allCps_iff fun c hm => ?_
  unfold cpIsAlnum
  rw [cpIsAlpha_eq hU, cpIsDigit_eq, Bool.or_eq_true]
  rcases Nat.lt_or_ge c.toNat 128 with hlt | hge
  · rw [if_pos hlt]
    unfold pyAlnum
    rw [hU.decimal c hlt, hU.digit c hlt, hU.numeric c hlt]
    tauto
  · rw [if_neg (by omega), ← hc idx hi c hm hge]
    have : asciiDigit c = false := decide_eq_false (by omega)
    simp [this]

/-- C94.  `isspace`, for texts without the four separator characters U+001C to U+001F. -/
theorem C94_isspace_partial (a : Strs) (t : Nd (List Char)) (hwf : a.view.WF) (h : a.Holds t)
    (hc : ∀ idx, InShape t.shape idx → ∀ c ∈ t.get idx, ¬ (28 ≤ c.toNat ∧ c.toNat ≤ 31)) :
    ∃ r : Nd Bool, (charIsspace a).Is r ∧ r.shape = t.shape ∧
      ∀ idx, InShape t.shape idx → (r.get idx = true ↔ AllKind pySpace (t.get idx)) := by
  refine predicate_of hwf h _ _ fun idx hi => allCps_iff fun c hm => ?_
  rw [cpIsSpace_iff]
  exact and_iff_left (hc idx hi c hm)

/-- C94.  `isupper` and `islower`, for texts without characters of title case. -/
theorem C94_isupper_partial (U : Unicode) (hU : U.Ascii) (a : Strs) (t : Nd (List Char)) (hwf : a.view.WF) (h : a.Holds t)
    (hd : ∀ c, ¬ (U.isUpper c = true ∧ U.isLower c = true))
    (hc : ∀ idx, InShape t.shape idx → ∀ c ∈ t.get idx, U.isTitle c = false) :
    (∃ r : Nd Bool, (charIsupper U a).Is r ∧ r.shape = t.shape ∧
      ∀ idx, InShape t.shape idx → (r.get idx = true ↔ IsUpperText U (t.get idx))) ∧
    (∃ r : Nd Bool, (charIslower U a).Is r ∧ r.shape = t.shape ∧
      ∀ idx, InShape t.shape idx → (r.get idx = true ↔ IsLowerText U (t.get idx))) := by
  have key : ∀ idx, InShape t.shape idx → (((t.get idx).map Char.toNat).any (cpIsCased U) = true ↔ ∃ c ∈ t.get idx, U.cased c = true) := by
    intro idx hi
    rw [List.any_map, List.any_eq_true]
    constructor
    · rintro ⟨c, hm, hx⟩
      exact ⟨c, hm, by rw [← cpIsCased_eq hU (hc idx hi c hm)]; exact hx⟩
    · rintro ⟨c, hm, hx⟩
      exact ⟨c, hm, by rw [← cpIsCased_eq hU (hc idx hi c hm)] at hx; exact hx⟩
  constructor
  · refine predicate_of hwf h _ _ fun idx hi => ?_
    rw [Bool.and_eq_true, key idx hi, List.all_map, List.all_eq_true]
    unfold IsUpperText
    refine and_congr_right fun _ => ?_
    refine forall_congr' fun c => forall_congr' fun hm => ?_
    have h1 := hc idx hi c hm
    have h2 := hd c
    show (!cpIsLower U c.toNat) = true ↔ _
    rw [cpIsLower_eq hU]
    unfold Unicode.cased
    rw [h1]
    cases e1 : U.isUpper c <;> cases e2 : U.isLower c <;> simp [e1, e2] at h2 ⊢
  · refine predicate_of hwf h _ _ fun idx hi => ?_
    rw [Bool.and_eq_true, key idx hi, List.all_map, List.all_eq_true]
    unfold IsLowerText
    refine and_congr_right fun _ => ?_
    refine forall_congr' fun c => forall_congr' fun hm => ?_
    have h1 := hc idx hi c hm
    have h2 := hd c
    show (!cpIsUpper U c.toNat) = true ↔ _
    rw [cpIsUpper_eq hU]
    unfold Unicode.cased
    rw [h1]
    cases e1 : U.isUpper c <;> cases e2 : U.isLower c <;> simp [e1, e2] at h2 ⊢

theorem istitleLoop_iff {U : Unicode} (hU : U.Ascii) (hd : ∀ c, ¬ (U.isUpper c = true ∧ U.isLower c = true)) :
    ∀ (s : List Char) (has prev : Bool), (∀ c ∈ s, U.isTitle c = false) →
      (istitleLoop U has prev (s.map Char.toNat) = true ↔ (has = true ∨ ∃ c ∈ s, U.cased c = true) ∧
        ∀ i c, s[i]? = some c → (U.isUpper c = true → (if i = 0 then prev else (s[i - 1]?).any U.cased) = false) ∧
          (U.isLower c = true → (if i = 0 then prev else (s[i - 1]?).any U.cased) = true))
  | [], has, prev, _ => by simp [istitleLoop]
  | d :: s, has, prev, ht => by
    have ht' : ∀ c ∈ s, U.isTitle c = false := fun c hc => ht c (List.mem_cons_of_mem _ hc)
    have hdt := ht d (List.mem_cons_self ..)
    have hsplit : ∀ (Q : Nat → Char → Prop), (∀ i c, (d :: s)[i]? = some c → Q i c) ↔ Q 0 d ∧ ∀ i c, s[i]? = some c → Q (i + 1) c := by
      intro Q
      constructor
      · intro g
        exact ⟨g 0 d rfl, fun i c hi => g (i + 1) c (by simpa using hi)⟩
      · rintro ⟨g1, g2⟩ i c hi
        cases i with
        | zero =>
          obtain rfl : d = c := by simpa using hi
          exact g1
        | succ i => exact g2 i c (by simpa using hi)
    rw [hsplit fun i c => (U.isUpper c = true → (if i = 0 then prev else ((d :: s)[i - 1]?).any U.cased) = false) ∧
      (U.isLower c = true → (if i = 0 then prev else ((d :: s)[i - 1]?).any U.cased) = true)]
    have hstep : ∀ i, (if i + 1 = 0 then prev else ((d :: s)[i + 1 - 1]?).any U.cased) =
        (if i = 0 then U.cased d else (s[i - 1]?).any U.cased) := by
      intro i
      cases i <;> simp
    simp only [hstep]
    have h2 := hd d
    simp only [List.map_cons, istitleLoop, cpIsUpper_eq hU, cpIsLower_eq hU, List.mem_cons, exists_eq_or_imp]
    have ih1 := istitleLoop_iff hU hd s true true ht'
    have ih2 := istitleLoop_iff hU hd s has false ht'
    cases e1 : U.isUpper d <;> cases e2 : U.isLower d
    · have hcd : U.cased d = false := by simp [Unicode.cased, e1, e2, hdt]
      simp only [hcd, if_false, Bool.false_eq_true, false_or, false_imp_iff, true_and, ih2, if_true]
    · have hcd : U.cased d = true := by simp [Unicode.cased, e1, e2]
      cases prev
      · simp
      · simp only [hcd, if_false, if_true, Bool.false_eq_true, true_or, or_true, false_imp_iff, true_and, ih1, implies_true, true_imp_iff]
    · have hcd : U.cased d = true := by simp [Unicode.cased, e1]
      cases prev
      · simp only [hcd, if_false, if_true, Bool.false_eq_true, true_or, or_true, false_imp_iff, true_and, ih1, implies_true, true_imp_iff]
      · simp
    · exact absurd ⟨e1, e2⟩ h2

/-- C94.  `istitle`, for texts without characters of title case. -/
theorem C94_istitle_partial (U : Unicode) (hU : U.Ascii) (a : Strs) (t : Nd (List Char)) (hwf : a.view.WF) (h : a.Holds t)
    (hd : ∀ c, ¬ (U.isUpper c = true ∧ U.isLower c = true))
    (hc : ∀ idx, InShape t.shape idx → ∀ c ∈ t.get idx, U.isTitle c = false) :
    ∃ r : Nd Bool, (charIstitle U a).Is r ∧ r.shape = t.shape ∧
      ∀ idx, InShape t.shape idx → (r.get idx = true ↔ IsTitleText U (t.get idx)) := by
  refine predicate_of hwf h _ _ fun idx hi => ?_
  have ht := hc idx hi
  generalize t.get idx = s at ht
  have hloop := istitleLoop_iff hU hd s false false ht
  have e : (if (s.map Char.toNat).isEmpty = true then false else istitleLoop U false false (s.map Char.toNat)) =
      istitleLoop U false false (s.map Char.toNat) := by
    cases s <;> rfl
  rw [e, hloop]
  unfold IsTitleText
  have hp : ∀ i, (if i = 0 then false else (s[i - 1]?).any U.cased) = prevCased U s i := by
    intro i
    unfold prevCased
    by_cases h0 : i = 0 <;> simp [h0]
  simp only [hp, Bool.false_eq_true, false_or]
  refine and_congr_right fun _ => ?_
  refine forall_congr' fun i => forall_congr' fun c => ?_
  constructor
  · intro g hi'
    refine ⟨fun hx => ?_, (g hi').2⟩
    rcases hx with hx | hx
    · exact (g hi').1 hx
    · rw [ht c (mem_of_at hi')] at hx; cases hx
  · intro g hi'
    exact ⟨fun hx => (g hi').1 (Or.inl hx), (g hi').2⟩

/-- Cases: titles and digits in a reversed view and in fresh arrays. -/
example : ∃ r : Nd Bool, (charIslower someUnicode backwards).Is r ∧ r.shape = backwardsTexts.shape ∧
    ∀ idx, InShape backwardsTexts.shape idx → (r.get idx = true ↔ IsLowerText someUnicode (backwardsTexts.get idx)) :=
  (C94_isupper_partial someUnicode someUnicode_ascii _ _ backwards_wf backwards_holds (by
    intro c hc
    simp only [someUnicode, Bool.or_eq_true, beq_iff_eq, asciiUpper, asciiLower, decide_eq_true_eq] at hc
    obtain ⟨((hu | rfl) | rfl) | rfl, hl⟩ := hc
    · rcases hl with (((hl | rfl) | rfl) | rfl) | rfl
      · omega
      all_goals revert hu; decide
    all_goals revert hl; decide) (by
    intro idx hi
    match idx, hi with
    | [0], _ => decide
    | [1], _ => decide)).2
example : (charIstitle someUnicode (fromVec 4 Char.toNat [['H', 'i', ' ', 'A', 'b'], ['H', 'I'], []] 5).strs).data = [true, false, false] ∧
    (charIsdigit (fromVec 4 Char.toNat [['1', '2'], ['1', 'a'], []] 2).strs).data = [true, false, false] ∧
    (charIsspace (fromVec 4 Char.toNat [[' ', '\t'], [' ', 'a'], []] 2).strs).data = [true, false, false] := by decide +kernel

/-- C94 fails beyond ASCII: a Roman number counts as a letter, a superscript two is no digit, an Arabic three no decimal and
not alphanumeric, and a Chinese five not numeric. -/
theorem C94_kinds_counterexample :
    ((charIsalpha someUnicode (fromVec 4 Char.toNat [['Ⅷ']] 1).strs).data = [true] ∧ someUnicode.letter 'Ⅷ' = false) ∧
    ((charIsdigit (fromVec 4 Char.toNat [['²']] 1).strs).data = [false] ∧ someUnicode.digit '²' = true) ∧
    ((charIsdecimal (fromVec 4 Char.toNat [['٣']] 1).strs).data = [false] ∧ someUnicode.decimal '٣' = true) ∧
    ((charIsalnum someUnicode (fromVec 4 Char.toNat [['٣']] 1).strs).data = [false] ∧ pyAlnum someUnicode '٣') ∧
    ((charIsnumeric someUnicode (fromVec 4 Char.toNat [['五']] 1).strs).data = [false] ∧ someUnicode.numeric '五' = true) ∧
    ((charIsspace (fromVec 4 Char.toNat [['\x1f']] 1).strs).data = [false] ∧ pySpace '\x1f') := by
  unfold pyAlnum
  decide +kernel

end Props
