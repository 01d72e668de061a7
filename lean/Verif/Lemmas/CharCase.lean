import Verif.Model.CharCase
import Verif.Lemmas.Char
import Verif.Lemmas.Io
import Verif.Lemmas.Masked
/-!
# Lemmas about letter case and predicates of the `char` functions
-/

namespace Rumpy
open Spec

/-- A character whose case mappings the code can follow: they lead to one character each, in title case to the same as in
upper case, and leave a character without case alone; and it is not the capital sigma, whose small letter depends on its
neighbours. -/
structure _root_.Spec.Unicode.Simple (U : Unicode) (c : Char) : Prop where
  upper : ∃ u, U.upper c = [u] ∧ u ≠ nul
  lower : ∃ u, U.lower c = [u] ∧ u ≠ nul
  title : U.title c = U.upper c
  isTitle : U.isTitle c = false
  sigma : c ≠ 'Σ'
  caseless : U.isUpper c = false → U.isLower c = false → U.upper c = [c] ∧ U.lower c = [c]

theorem toNat_ne_zero {c : Char} (h : c ≠ nul) : c.toNat ≠ 0 := by
  intro h0
  apply h
  rw [← Char.ofNat_toNat c, h0]
  rfl

theorem toNat_ofNat_small {n : Nat} (h : n < 0xD800) : (Char.ofNat n).toNat = n := by
  have hv : n.isValidChar := Or.inl h
  simp [Char.ofNat, hv, Char.ofNatAux, Char.toNat]

theorem ofNat_ne_nul {n : Nat} (h1 : n ≠ 0) (h2 : n < 0xD800) : Char.ofNat n ≠ nul := by
  intro hc
  have := congrArg Char.toNat hc
  rw [toNat_ofNat_small h2] at this
  exact h1 this

/-- All ASCII characters are simple. -/
theorem ascii_simple {U : Unicode} (hU : U.Ascii) {c : Char} (h : c.toNat < 128) (h0 : c ≠ nul) : U.Simple c := by
  have hn := toNat_ne_zero h0
  refine ⟨⟨_, hU.upper c h, ?_⟩, ⟨_, hU.lower c h, ?_⟩, hU.title c h, hU.isTitle c h, ?_, ?_⟩
  · split
    · rename_i hc
      have := of_decide_eq_true hc
      exact ofNat_ne_nul (by omega) (by omega)
    · exact h0
  · split
    · exact ofNat_ne_nul (by omega) (by omega)
    · exact h0
  · rintro rfl
    revert h
    decide
  · intro h1 h2
    rw [hU.isUpper c h] at h1
    rw [hU.isLower c h] at h2
    rw [hU.upper c h, hU.lower c h, h1, h2]
    exact ⟨rfl, rfl⟩

theorem oneToOne_eq {f : Char → List Char} {c u : Char} (h : f c = [u]) : oneToOne f c.toNat = u.toNat := by
  unfold oneToOne
  rw [charOf_toNat]
  simp [h]

theorem cpUpper_eq {U : Unicode} (hU : U.Ascii) {c u : Char} (h : U.upper c = [u]) : cpUpper U c.toNat = u.toNat := by
  unfold cpUpper
  split
  · rename_i hc
    rw [hU.upper c (by omega)] at h
    have e : asciiLower c = true := decide_eq_true hc
    rw [e] at h
    obtain rfl : Char.ofNat (c.toNat - 32) = u := by simpa using h
    rw [toNat_ofNat_small (by omega)]
  · exact oneToOne_eq h

theorem cpLower_eq {U : Unicode} (hU : U.Ascii) {c u : Char} (h : U.lower c = [u]) : cpLower U c.toNat = u.toNat := by
  unfold cpLower
  split
  · rename_i hc
    rw [hU.lower c (by omega)] at h
    have e : asciiUpper c = true := decide_eq_true hc
    rw [e] at h
    obtain rfl : Char.ofNat (c.toNat + 32) = u := by simpa using h
    rw [toNat_ofNat_small (by omega)]
  · exact oneToOne_eq h

theorem charTest_eq (p : Char → Bool) (c : Char) : charTest p c.toNat = p c := by
  unfold charTest
  rw [charOf_toNat]
  rfl

theorem cpIsUpper_eq {U : Unicode} (hU : U.Ascii) (c : Char) : cpIsUpper U c.toNat = U.isUpper c := by
  unfold cpIsUpper
  split
  · rw [hU.isUpper c (by omega)]
    simp [asciiUpper]
  · exact charTest_eq _ c

theorem cpIsLower_eq {U : Unicode} (hU : U.Ascii) (c : Char) : cpIsLower U c.toNat = U.isLower c := by
  unfold cpIsLower
  split
  · rw [hU.isLower c (by omega)]
    simp [asciiLower]
  · exact charTest_eq _ c

theorem cpIsDigit_eq (c : Char) : cpIsDigit c.toNat = asciiDigit c := by
  unfold cpIsDigit
  split
  · simp [asciiDigit]
  · exact charTest_eq _ c

theorem cpIsAlpha_eq {U : Unicode} (hU : U.Ascii) (c : Char) :
    cpIsAlpha U c.toNat = if c.toNat < 128 then U.letter c else U.alphabetic c := by
  unfold cpIsAlpha
  split
  · rw [if_pos (by omega), hU.letter c (by omega)]
    simp [asciiLower, asciiUpper]
  · rw [if_neg (by omega)]
    exact charTest_eq _ c

theorem chunkOrder_eq (n : Nat) : chunkOrder n = List.range n := by
  unfold chunkOrder
  have h := range_blocks (fun i => i) (n / 8) 8
  rw [List.map_id'] at h
  rw [List.flatMap_def, ← h]
  have : List.range n = List.range (n / 8 * 8 + n % 8) := by congr 1; omega
  rw [this, List.range_add]

/-- The units of the result of a transformation, element by element. -/
theorem transformOf_units {a : Strs} (hwf : a.view.WF) (hu : a.unit = 4) (hit : a.view.item = 4 * a.width) (f : Nat → Nat) :
    transformOf a f = ⟨4, a.view.shape, a.width,
      a.sources.flatMap fun src => (List.range a.width).map fun j => keepZero f (src j)⟩ := by
  have hlen : a.sources.length = sizeOf a.view.shape := by
    rw [sources_eq hwf hit, List.length_map, length_indices, sizeOf_eq]
  unfold transformOf
  dsimp only
  split
  · rename_i h0
    have : a.sources = [] := List.length_eq_zero_iff.1 (by rw [hlen, h0])
    rw [h0, this]
    simp
  · split
    · rename_i hc
      congr 1
      rw [chunkOrder_eq, writes_range _ _ _ (by simp), range_blocks]
      unfold Strs.sources
      rw [if_pos hc, List.flatMap_def, List.map_map]
      congr 1
      apply List.map_congr_left
      intro i _
      apply List.map_congr_left
      intro j _
      show keepZero f (a.mem _) = keepZero f (a.mem _)
      congr 2
      rw [hu]
      push_cast
      ring
    · rename_i hc
      congr 1
      have hs : a.sources = a.view.addrs.map a.cell := by
        unfold Strs.sources
        rw [if_neg hc]
      have h := writes_cells a.width (a.sources.map fun src => (List.range a.width).map fun j => keepZero f (src j)) (by
        intro c hcm
        obtain ⟨src, -, rfl⟩ := List.mem_map.1 hcm
        simp)
      rw [List.length_map, hlen] at h
      have e : ∀ (l : List (Nat → Nat)), ((l.map fun src => (List.range a.width).map fun j => keepZero f (src j)).flatMap (padCell a.width)) =
          l.flatMap fun src => (List.range a.width).map fun j => keepZero f (src j) := by
        intro l
        rw [List.flatMap_map]
        congr 1
        funext src
        unfold padCell
        simp
      rw [e] at h
      rw [← h, hs, List.map_map]
      congr 1
      rw [zipIdx_flatMap_map ((fun src : Nat → Nat => (List.range a.width).map fun j => keepZero f (src j)) ∘ a.cell)
        (fun (c : List Nat) (i : Nat) => c.zipIdx.map fun xj => (i * a.width + xj.2, xj.1))]
      congr 1
      funext ai
      apply List.ext_getElem <;> simp

/-- A transformation of every character, seen on the texts. -/
theorem transformOf_holds {a : Strs} {t : Nd (List Char)} (hwf : a.view.WF) (h : a.Holds t) {f : Nat → Nat} {g : List Nat → List Char}
    (hg : ∀ idx, InShape t.shape idx → (t.get idx).map (fun c => f c.toNat) = (g idx).map Char.toNat ∧ NoNul (g idx)) :
    (transformOf a f).strs.Holds ⟨t.shape, g⟩ := by
  obtain ⟨hu, hit, hs, hcell⟩ := h
  rw [transformOf_units hwf hu hit, sources_eq hwf hit, List.flatMap_map, hs]
  have hlen : ∀ idx, InShape t.shape idx → (g idx).length = (t.get idx).length := by
    intro idx hi
    have := congrArg List.length (hg idx hi).1
    simpa using this.symm
  have e : ((indices t.shape).flatMap fun idx => (List.range a.width).map fun j => keepZero f (a.cell (a.view.addr idx) j)) =
      (indices t.shape).flatMap fun idx => padCell a.width ((g idx).map Char.toNat) := by
    rw [List.flatMap_def, List.flatMap_def]
    congr 1
    apply List.map_congr_left
    intro idx hi
    have hi' := mem_indices.1 hi
    have hc := hcell idx hi'
    apply List.ext_getElem
    · simp
    · intro j h1 h2
      have hj : j < a.width := by simpa using h1
      have hp := getD_padCell ((g idx).map Char.toNat) hj
      rw [List.getD_eq_getElem?_getD, List.getElem?_eq_getElem h2, Option.getD_some] at hp
      rw [hp, List.getElem_map, List.getElem_range, hc.2.2 j hj, ← (hg idx hi').1]
      simp only [List.getD_eq_getElem?_getD, List.getElem?_map]
      by_cases hjl : j < (t.get idx).length
      · rw [List.getElem?_eq_getElem hjl]
        simp only [Option.map_some, Option.getD_some]
        unfold keepZero
        rw [if_neg]
        have h0 := hc.2.1
        intro h0'
        exact h0 (h0' ▸ List.mem_map.2 ⟨_, List.getElem_mem hjl, rfl⟩)
      · rw [List.getElem?_eq_none (by omega)]
        rfl
  rw [e]
  refine out_holds fun idx hi => ⟨?_, (hg idx hi).2⟩
  rw [hlen idx hi]
  simpa using (hcell idx hi).1

/-- A text in which every character becomes one character. -/
theorem eachAt_codes (f : Char → Nat → List Char) : ∀ (s : List Char) (l : List Nat) (k : Nat), l.length = s.length →
    (∀ i c, s[i]? = some c → ∃ u, f c (k + i) = [u] ∧ u ≠ nul ∧ l[i]? = some u.toNat) →
    l = ((s.zipIdx k).flatMap fun ci => f ci.1 ci.2).map Char.toNat ∧ NoNul ((s.zipIdx k).flatMap fun ci => f ci.1 ci.2)
  | [], l, k, hl, _ => by
    obtain rfl : l = [] := List.length_eq_zero_iff.1 hl
    exact ⟨rfl, by simp [NoNul]⟩
  | c :: s, [], k, hl, _ => by simp at hl
  | c :: s, x :: l, k, hl, h => by
    obtain ⟨u, h1, h2, h3⟩ := h 0 c rfl
    obtain ⟨e1, e2⟩ := eachAt_codes f s l (k + 1) (by simpa using hl) (by
      intro i d hd
      have := h (i + 1) d (by simpa using hd)
      rw [show k + 1 + i = k + (i + 1) by omega]
      simpa using this)
    simp only [List.zipIdx_cons, List.flatMap_cons]
    rw [Nat.add_zero] at h1
    rw [h1]
    have hx : x = u.toNat := by simpa using h3
    refine ⟨?_, ?_⟩
    · rw [List.singleton_append, List.map_cons, ← e1, hx]
    · unfold NoNul at *
      simp only [List.singleton_append, List.mem_cons, not_or]
      exact ⟨fun hc => h2 hc.symm, e2⟩

/-- The characters of an element. -/
theorem CellOf.cps {src : Nat → Nat} {w : Nat} {s : List Char} (h : CellOf src w (s.map Char.toNat)) :
    (List.range (Rumpy.strlen src w)).map src = s.map Char.toNat := by
  have := h.map_range (i := 0) (n := s.length) (by omega)
  rw [h.strlen, List.range_eq_range', this]
  simp

theorem titleLoop_getElem (U : Unicode) : ∀ (l : List Nat) (prev : Bool) (i x : Nat), l[i]? = some x →
    (titleLoop U prev l)[i]? = some (if cpIsCased U x then
      (if (if i = 0 then prev else (l[i - 1]?).any (cpIsCased U)) then cpLower U x else cpUpper U x) else x)
  | [], prev, i, x, h => by simp at h
  | y :: l, prev, 0, x, h => by
    obtain rfl : y = x := by simpa using h
    simp [titleLoop]
  | y :: l, prev, i + 1, x, h => by
    have h' : l[i]? = some x := by simpa using h
    have ih := titleLoop_getElem U l (cpIsCased U y) i x h'
    simp only [titleLoop, List.getElem?_cons_succ, ih]
    cases i <;> simp

theorem titleLoop_length (U : Unicode) : ∀ (l : List Nat) (prev : Bool), (titleLoop U prev l).length = l.length
  | [], _ => rfl
  | y :: l, prev => by simp [titleLoop, titleLoop_length U l]

end Rumpy
