import Verif.Lemmas.Print
import Verif.Lemmas.Array
/-!
# C65: printed arrays

`text x` is the printed form of an element.  `page` (Spec/Print) is the exact layout of a printed
array, `tokens` reads a text as brackets and words, and `nested` is the nested list an array should
be read as.
-/

namespace Props
open Spec Rumpy

/-- The widest of some texts. -/
def widest (l : List (List Char)) : Nat := (l.map List.length).foldl max 0

/-- The widest text has the width, and no text is wider. -/
theorem C65_spec_widest (l : List (List Char)) :
    (∀ s ∈ l, s.length ≤ widest l) ∧ (l = [] ∨ ∃ s ∈ l, s.length = widest l) := by
  have key : ∀ (l : List Nat) (k : Nat), k ≤ l.foldl max k ∧ (∀ n ∈ l, n ≤ l.foldl max k) ∧
      (l.foldl max k = k ∨ l.foldl max k ∈ l) := by
    intro l
    induction l with
    | nil => intro k; simp
    | cons n l ih =>
      intro k
      obtain ⟨h1, h2, h3⟩ := ih (max k n)
      simp only [List.foldl_cons]
      refine ⟨by omega, ?_, ?_⟩
      · intro m hm
        rcases List.mem_cons.1 hm with rfl | hm
        · omega
        · exact h2 m hm
      · rcases h3 with h3 | h3
        · rcases Nat.le_total k n with h | h
          · right; rw [h3, Nat.max_eq_right h]; exact List.mem_cons_self
          · left; rw [h3, Nat.max_eq_left h]
        · right; exact List.mem_cons_of_mem _ h3
  obtain ⟨_, h2, h3⟩ := key (l.map List.length) 0
  refine ⟨fun s hs => h2 _ (List.mem_map_of_mem hs), ?_⟩
  cases l with
  | nil => left; rfl
  | cons a l =>
    right
    rcases h3 with h3 | h3
    · refine ⟨a, List.mem_cons_self, ?_⟩
      have := h2 _ (List.mem_map_of_mem (f := List.length) (List.mem_cons_self (a := a) (l := l)))
      unfold widest
      omega
    · obtain ⟨s, hs, he⟩ := List.mem_map.1 h3
      exact ⟨s, hs, he⟩

theorem byteLength_ascii {s : List Char} (h : ∀ c ∈ s, c.toNat < 128) : byteLength s = s.length := by
  induction s with
  | nil => rfl
  | cons c s ih =>
    have hc : c.utf8Size = 1 := by
      have := h c List.mem_cons_self
      rw [Char.utf8Size_eq_one_iff]
      rw [UInt32.le_iff_toNat_le]
      have e : (127 : UInt32).toNat = 127 := rfl
      have e2 : c.val.toNat = c.toNat := rfl
      omega
    have := ih fun c hc => h c (List.mem_cons_of_mem _ hc)
    simp only [byteLength, List.map_cons, List.sum_cons, List.length_cons, hc] at *
    omega

/-- Every index shown is an index of the array. -/
theorem shownIndices_inShape {abridged : Bool} {s idx : List Nat} (h : idx ∈ shownIndices abridged s) : InShape s idx := by
  induction s generalizing idx with
  | nil => simp [shownIndices] at h; subst h; trivial
  | cons n s ih =>
    simp only [shownIndices, List.mem_flatMap] at h
    obtain ⟨o, ho, hm⟩ := h
    cases o with
    | none => simp at hm
    | some i =>
      obtain ⟨idx', h', rfl⟩ := List.mem_map.1 hm
      exact ⟨shownAlong_lt ho, ih h'⟩

variable {α : Type}

/-- The body of a printed array: both forms of printing, every layout. -/
theorem formatData_page (v : View) (mem : Int → α) (text : α → List Char) {comma : List Char} (hc : IsComma comma)
    (abridged : Bool) (base : Nat) (hne : size v.shape ≠ 0)
    (hascii : ∀ idx, InShape v.shape idx → ∀ c ∈ text ((v.denote mem).get idx), c.toNat < 128) :
    formatData v (fun p => text (mem p)) (comma ++ [' ']) abridged 3 base =
      page abridged comma (widest ((shownIndices abridged v.shape).map fun idx => text ((v.denote mem).get idx))) base
        v.shape fun idx => text ((v.denote mem).get idx) := by
  have hw : ((collectElements v (fun p => text (mem p)) abridged 3 v.shape []).map byteLength).foldl max 0 =
      widest ((shownIndices abridged v.shape).map fun idx => text ((v.denote mem).get idx)) := by
    rw [collectElements_shown, widest]
    congr 1
    simp only [List.map_map]
    refine List.map_congr_left fun idx hi => ?_
    exact byteLength_ascii (hascii idx (shownIndices_inShape hi))
  unfold formatData
  rw [if_neg (by rw [sizeOf_eq]; exact hne)]
  dsimp only
  rw [hw, formatRecursive_page _ _ hc]
  rfl

/-- C65.  `str(a)`: the page with blanks between the elements, abridged above 1000 elements, where
the elements are aligned to the widest one shown. -/
theorem C65_str_page (v : View) (mem : Int → α) (text : α → List Char) (hne : size v.shape ≠ 0)
    (hascii : ∀ idx, InShape v.shape idx → ∀ c ∈ text ((v.denote mem).get idx), c.toNat < 128) :
    formatStr v (fun p => text (mem p)) =
      page (decide (1000 < size v.shape)) []
        (widest ((shownIndices (decide (1000 < size v.shape)) v.shape).map fun idx => text ((v.denote mem).get idx)))
        1 v.shape fun idx => text ((v.denote mem).get idx) := by
  rw [formatStr, ← formatData_page v mem text (Or.inl rfl) _ 1 hne hascii]
  simp [sizeOf_eq]

theorem shapeTuple_eq (s : List Nat) : shapeTuple s = tupleText s := by
  unfold shapeTuple tupleText
  split
  · simp [showNat]
  · rename_i h
    have : s.length ≠ 1 := by
      intro h1
      obtain ⟨n, rfl⟩ := List.length_eq_one_iff.1 h1
      exact h n rfl
    rw [if_neg this]
    simp only [List.append_nil]
    rfl

/-- C65.  `repr(a)`: `array(`, the page with commas, then the shape if the array is abridged, and
the dtype unless it is int64, float64 or bool. -/
theorem C65_repr_page (v : View) (mem : Int → α) (text : α → List Char) (kind : ReprKind) (name : List Char)
    (hne : size v.shape ≠ 0)
    (hascii : ∀ idx, InShape v.shape idx → ∀ c ∈ text ((v.denote mem).get idx), c.toNat < 128) :
    formatRepr v (fun p => text (mem p)) kind name = "array(".toList ++
      page (decide (1000 < size v.shape)) [',']
        (widest ((shownIndices (decide (1000 < size v.shape)) v.shape).map fun idx => text ((v.denote mem).get idx)))
        7 v.shape (fun idx => text ((v.denote mem).get idx)) ++
      (if 1000 < size v.shape then ", shape=".toList ++ tupleText v.shape else []) ++
      (if kind = .named then ", dtype=".toList ++ name else []) ++ ")".toList := by
  have h := formatData_page v mem text (comma := [',']) (Or.inr rfl) (decide (1000 < size v.shape)) 7 hne hascii
  have h' : formatData v (fun p => text (mem p)) [',', ' '] (decide (1000 < size v.shape)) 3 7 = _ := h
  unfold formatRepr
  rw [sizeOf_eq]
  dsimp only
  rw [h', if_neg hne, shapeTuple_eq]
  by_cases h1 : 1000 < size v.shape
  · cases kind <;> simp [h1]
  · cases kind <;> simp [h1]

/-- C65.  What a reader sees in `str(a)` is the nested list of the elements, in the order of their
indices and with the brackets of the shape; abridged above 1000 elements. -/
theorem C65_str_tokens (v : View) (mem : Int → α) (text : α → List Char) (hne : size v.shape ≠ 0)
    (hw : ∀ idx, InShape v.shape idx → IsWord (text ((v.denote mem).get idx))) :
    tokens (formatStr v fun p => text (mem p)) =
      nested (decide (1000 < size v.shape)) v.shape fun idx => text ((v.denote mem).get idx) := by
  unfold formatStr formatData
  rw [sizeOf_eq, if_neg hne]
  dsimp only
  rw [show ([' '] : List Char) = [] ++ [' '] from rfl, formatRecursive_page _ _ (Or.inl rfl)]
  exact tokens_page (Or.inl rfl) _ _ _ _ hw

/-- C65.  Printing does not depend on the memory layout: arrays that are the same to a user print
the same, in both forms. -/
theorem C65_layout (v w : View) (memv memw : Int → α) (text : α → List Char) (kind : ReprKind) (name : List Char)
    (h : (v.denote memv).Same (w.denote memw)) :
    formatStr v (fun p => text (memv p)) = formatStr w (fun p => text (memw p)) ∧
      formatRepr v (fun p => text (memv p)) kind name = formatRepr w (fun p => text (memw p)) kind name := by
  have hs : v.shape = w.shape := h.1
  have hg : ∀ idx, InShape v.shape idx → memv (v.addr idx) = memw (w.addr idx) := h.2
  have hpage : ∀ (abridged : Bool) (comma : List Char) (width base : Nat) (s : List Nat) (f g : List Nat → List Char),
      (∀ idx, InShape s idx → f idx = g idx) → page abridged comma width base s f = page abridged comma width base s g := by
    intro abridged comma width base s
    induction s generalizing base with
    | nil => intro f g hfg; simp [page, hfg [] trivial]
    | cons n s ih =>
      intro f g hfg
      simp only [page]
      congr 3
      refine List.map_congr_left fun o ho => ?_
      cases o with
      | none => rfl
      | some i => exact ih _ _ _ fun idx hi => hfg _ ⟨shownAlong_lt ho, hi⟩
  have hdata : ∀ (comma : List Char) (abridged : Bool) (base : Nat), IsComma comma →
      formatData v (fun p => text (memv p)) (comma ++ [' ']) abridged 3 base =
        formatData w (fun p => text (memw p)) (comma ++ [' ']) abridged 3 base := by
    intro comma abridged base hc
    unfold formatData
    rw [hs]
    split
    · rfl
    dsimp only
    rw [formatRecursive_page _ _ hc, formatRecursive_page _ _ hc, collectElements_shown, collectElements_shown]
    have he : (shownIndices abridged w.shape).map (fun idx => text (memv (v.addr ([] ++ idx)))) =
        (shownIndices abridged w.shape).map (fun idx => text (memw (w.addr ([] ++ idx)))) :=
      List.map_congr_left fun idx hi => by
        have := shownIndices_inShape hi
        rw [← hs] at this
        simp [hg idx this]
    rw [he]
    refine hpage _ _ _ _ _ _ _ fun idx hi => ?_
    rw [← hs] at hi
    simp [hg idx hi]
  have h1 := hdata [] (decide (1000 < Rumpy.sizeOf w.shape)) 1 (Or.inl rfl)
  have h2 := hdata [','] (decide (1000 < Rumpy.sizeOf w.shape)) 7 (Or.inr rfl)
  constructor
  · unfold formatStr
    rw [hs]
    exact h1
  · unfold formatRepr
    rw [hs]
    dsimp only
    rw [show ([',', ' '] : List Char) = [','] ++ [' '] from rfl, h2]

/-- C65.  Up to 1000 elements nothing is lost: if two non-empty arrays print the same, they have
the same shape and the same element texts at every index. -/
theorem C65_str_injective (v w : View) (memv memw : Int → α) (text : α → List Char)
    (hv : ∀ n ∈ v.shape, 0 < n) (hw : ∀ n ∈ w.shape, 0 < n)
    (hv1 : size v.shape ≤ 1000) (hw1 : size w.shape ≤ 1000)
    (htv : ∀ idx, InShape v.shape idx → IsWord (text ((v.denote memv).get idx)))
    (htw : ∀ idx, InShape w.shape idx → IsWord (text ((w.denote memw).get idx)))
    (h : formatStr v (fun p => text (memv p)) = formatStr w (fun p => text (memw p))) :
    v.shape = w.shape ∧
      ∀ idx, InShape v.shape idx → text ((v.denote memv).get idx) = text ((w.denote memw).get idx) := by
  have pos : ∀ s : List Nat, (∀ n ∈ s, 0 < n) → size s ≠ 0 := by
    intro s
    induction s with
    | nil => simp [size]
    | cons n s ih =>
      intro hs
      have h1 := hs n List.mem_cons_self
      have h2 := ih fun m hm => hs m (List.mem_cons_of_mem _ hm)
      have := Nat.mul_pos h1 (Nat.pos_of_ne_zero h2)
      simp only [size]
      omega
  have e1 := C65_str_tokens v memv text (pos _ hv) htv
  have e2 := C65_str_tokens w memw text (pos _ hw) htw
  rw [h, e2, decide_eq_false (by omega), decide_eq_false (by omega)] at e1
  obtain ⟨h1, _, h3⟩ := nested_injective _ _ _ _ [] [] hw hv (by simpa using e1)
  exact ⟨h1.symm, fun idx hi => (h3 idx (by rw [h1]; exact hi)).symm⟩

theorem formatRepr_small (v : View) (text : Int → List Char) (kind : ReprKind) (name : List Char)
    (h0 : size v.shape ≠ 0) (h1 : size v.shape ≤ 1000) :
    formatRepr v text kind name = "array(".toList ++ formatData v text [',', ' '] false 3 7 ++
      (if kind = .named then ", dtype=".toList ++ name else []) ++ [')'] := by
  unfold formatRepr
  rw [sizeOf_eq]
  dsimp only
  rw [decide_eq_false (Nat.not_lt.2 h1), if_neg h0]
  cases kind <;> rfl

/-- C65.  The same for `repr` and one dtype. -/
theorem C65_repr_injective (v w : View) (memv memw : Int → α) (text : α → List Char) (kind : ReprKind) (name : List Char)
    (hv : ∀ n ∈ v.shape, 0 < n) (hw : ∀ n ∈ w.shape, 0 < n) (hv0 : size v.shape ≠ 0) (hw0 : size w.shape ≠ 0)
    (hv1 : size v.shape ≤ 1000) (hw1 : size w.shape ≤ 1000)
    (htv : ∀ idx, InShape v.shape idx → IsWord (text ((v.denote memv).get idx)))
    (htw : ∀ idx, InShape w.shape idx → IsWord (text ((w.denote memw).get idx)))
    (h : formatRepr v (fun p => text (memv p)) kind name = formatRepr w (fun p => text (memw p)) kind name) :
    v.shape = w.shape ∧
      ∀ idx, InShape v.shape idx → text ((v.denote memv).get idx) = text ((w.denote memw).get idx) := by
  have hd : formatData v (fun p => text (memv p)) [',', ' '] false 3 7 =
      formatData w (fun p => text (memw p)) [',', ' '] false 3 7 := by
    rw [formatRepr_small _ _ _ _ hv0 hv1, formatRepr_small _ _ _ _ hw0 hw1, List.append_left_inj, List.append_left_inj,
      List.append_right_inj] at h
    exact h
  unfold formatData at hd
  simp only [sizeOf_eq, hv0, hw0, if_false] at hd
  rw [show ([',', ' '] : List Char) = [','] ++ [' '] from rfl, formatRecursive_page _ _ (Or.inr rfl),
    formatRecursive_page _ _ (Or.inr rfl)] at hd
  have ht := congrArg tokens hd
  simp only [List.nil_append] at ht
  rw [tokens_page (Or.inr rfl) _ _ v.shape (fun idx => text (memv (v.addr idx))) htv,
    tokens_page (Or.inr rfl) _ _ w.shape (fun idx => text (memw (w.addr idx))) htw] at ht
  obtain ⟨h1, _, h3⟩ := nested_injective _ _ _ _ [] [] hv hw (by simpa using ht)
  exact ⟨h1, h3⟩

/-! ### Element texts -/

/-- C65.  An integer is printed with all its digits. -/
theorem C65_int_text (z : Int) : IsWord (intText z) ∧ decimalValue (intText z) = some (z : ℚ) := by
  have hd := showNat_digits z.natAbs
  have hne := showNat_ne_nil z.natAbs
  have hend : ∀ c : Char, c.isDigit = true → endsWord c = false := by
    intro c hc
    have h48 := isDigit_ge hc
    have : c ≠ ' ' ∧ c ≠ ',' ∧ c ≠ '\n' ∧ c ≠ '[' ∧ c ≠ ']' := by
      refine ⟨?_, ?_, ?_, ?_, ?_⟩ <;> (rintro rfl; revert hc; decide)
    simp [endsWord, isBlank, this]
  have hval : unsignedValue (showNat z.natAbs) = some (z.natAbs : ℚ) := by
    have hp : ∀ c ∈ showNat z.natAbs, decide (c ≠ '.') = true := by
      intro c hc
      have := hd c hc
      simp only [decide_eq_true_eq]
      rintro rfl
      exact absurd this (by decide)
    have h1 : (showNat z.natAbs).takeWhile (· ≠ '.') = showNat z.natAbs := by
      have := List.takeWhile_append_of_pos hp (l₂ := [])
      simpa using this
    have h2 : (showNat z.natAbs).dropWhile (· ≠ '.') = [] := by
      have := List.dropWhile_append_of_pos hp (l₂ := [])
      simpa using this
    have h3 : Nat.ofDigitChars 10 (showNat z.natAbs) 0 = z.natAbs := by
      have := ofDigitChars_showNatPad 0 z.natAbs
      rwa [showNatPad_zero] at this
    simp only [unsignedValue, h1, h2, if_neg hne, digitsValue_of hd, h3]
    simp [digitsValue]
  unfold intText showInt
  by_cases hz : z < 0
  · rw [if_pos hz]
    refine ⟨⟨by simp, ?_⟩, ?_⟩
    · intro c hc
      rcases List.mem_cons.1 hc with rfl | hc
      · decide
      · exact hend c (hd c hc)
    · simp only [decimalValue, hval, Option.map_some, Option.some.injEq]
      have : (z.natAbs : Int) = -z := by omega
      have h2 : ((z.natAbs : Nat) : ℚ) = -(z : ℚ) := by rw [← Int.cast_natCast, this]; simp
      rw [h2]; ring
  · rw [if_neg hz]
    refine ⟨⟨hne, fun c hc => hend c (hd c hc)⟩, ?_⟩
    have hnm : ∀ r, showNat z.natAbs ≠ '-' :: r := by
      intro r hr
      have := hd '-' (by rw [hr]; exact List.mem_cons_self)
      exact absurd this (by decide)
    have : decimalValue (showNat z.natAbs) = unsignedValue (showNat z.natAbs) := by
      unfold decimalValue
      split
      · rename_i r hr; exact absurd hr (hnm r)
      · rfl
    rw [this, hval]
    have : (z.natAbs : Int) = z := by omega
    have h2 : ((z.natAbs : Nat) : ℚ) = (z : ℚ) := by rw [← Int.cast_natCast, this]
    rw [h2]

/-- C65.  So integer arrays can be recovered from their printed form: if two non-empty integer
arrays of at most 1000 elements print the same, they are the same array. -/
theorem C65_int_array (v w : View) (memv memw : Int → Int)
    (hv : ∀ n ∈ v.shape, 0 < n) (hw : ∀ n ∈ w.shape, 0 < n)
    (hv1 : size v.shape ≤ 1000) (hw1 : size w.shape ≤ 1000)
    (h : formatStr v (fun p => intText (memv p)) = formatStr w (fun p => intText (memw p))) :
    (v.denote memv).Same (w.denote memw) := by
  obtain ⟨h1, h2⟩ := C65_str_injective v w memv memw intText hv hw hv1 hw1 (fun _ _ => (C65_int_text _).1)
    (fun _ _ => (C65_int_text _).1) h
  refine ⟨h1, fun idx hi => ?_⟩
  have := congrArg decimalValue (h2 idx hi)
  rw [(C65_int_text _).2, (C65_int_text _).2] at this
  exact_mod_cast Option.some.inj this

/-- The number `{:.p}` prints, with the zeros at the end taken off. -/
theorem fixed_value (p : Nat) (hp : 0 < p) (negative : Bool) (q : ℚ) (hq : q < 0 → negative = true)
    (hq' : 0 < q → negative = false) :
    ∃ x, decimalValue (trimZeros (fixedText p negative q)) = some x ∧ |x - q| ≤ 1 / 2 / 10 ^ p := by
  obtain ⟨z, hz⟩ : ∃ z, z = if |q| * 10 ^ p - (⌊|q| * 10 ^ p⌋.toNat : ℚ) < 1 / 2 then ⌊|q| * 10 ^ p⌋.toNat
      else if 1 / 2 < |q| * 10 ^ p - (⌊|q| * 10 ^ p⌋.toNat : ℚ) then ⌊|q| * 10 ^ p⌋.toNat + 1
      else if ⌊|q| * 10 ^ p⌋.toNat % 2 = 0 then ⌊|q| * 10 ^ p⌋.toNat else ⌊|q| * 10 ^ p⌋.toNat + 1 := ⟨_, rfl⟩
  have hpos : (0 : ℚ) < 10 ^ p := by positivity
  have hr := fixed_round (|q| * 10 ^ p) (by positivity) z hz
  have htext : trimZeros (fixedText p negative q) =
      (if negative then ['-'] else []) ++ (showNat (z / 10 ^ p) ++ '.' :: trimZeros (showNatPad p (z % 10 ^ p))) := by
    have : fixedText p negative q =
        ((if negative then ['-'] else []) ++ showNat (z / 10 ^ p)) ++ '.' :: showNatPad p (z % 10 ^ p) := by
      unfold fixedText
      dsimp only
      rw [← hz]
      simp
    rw [this, trimZeros_point]
    simp
  have hlen : (showNatPad p (z % 10 ^ p)).length = p := by
    have hlt : z % 10 ^ p < 10 ^ p := Nat.mod_lt _ (by positivity)
    have h1 : (showNat (z % 10 ^ p)).length ≤ p := by
      rw [showNat]
      exact (Nat.length_toDigits_le_iff (by decide) hp).2 hlt
    simp [showNatPad]
    omega
  have hval : unsignedValue (showNat (z / 10 ^ p) ++ '.' :: trimZeros (showNatPad p (z % 10 ^ p))) =
      some ((z : ℚ) / 10 ^ p) := by
    rw [unsignedValue_point (showNat_digits _) (showNat_ne_nil _) (showNatPad_digits _ _), ofDigitChars_showNatPad, hlen]
    have h3 : Nat.ofDigitChars 10 (showNat (z / 10 ^ p)) 0 = z / 10 ^ p := by
      have := ofDigitChars_showNatPad 0 (z / 10 ^ p)
      rwa [showNatPad_zero] at this
    rw [h3]
    congr 1
    have h4 : ((10 ^ p * (z / 10 ^ p) + z % 10 ^ p : Nat) : ℚ) = (z : ℚ) := by rw [Nat.div_add_mod]
    push_cast at h4
    rw [eq_div_iff (by positivity), add_mul, div_mul_cancel₀ _ (ne_of_gt hpos)]
    linarith
  have hbound : abs ((z : ℚ) / 10 ^ p - |q|) ≤ 1 / 2 / 10 ^ p := by
    have : (z : ℚ) / 10 ^ p - |q| = ((z : ℚ) - |q| * 10 ^ p) / 10 ^ p := by
      rw [sub_div, mul_div_cancel_right₀ _ (ne_of_gt hpos)]
    rw [this, abs_div, abs_of_pos hpos]
    exact div_le_div_of_nonneg_right hr (le_of_lt hpos)
  rw [htext]
  cases negative with
  | true =>
    refine ⟨-((z : ℚ) / 10 ^ p), ?_, ?_⟩
    · simp only [if_true, List.singleton_append, decimalValue, hval, Option.map_some]
    · have hle : q ≤ 0 := by
        by_contra hc
        exact absurd (hq' (not_le.1 hc)) (by simp)
      rw [abs_of_nonpos hle] at hbound
      rw [← abs_neg]
      convert hbound using 2
      ring
  | false =>
    refine ⟨(z : ℚ) / 10 ^ p, ?_, ?_⟩
    · have hne : ∀ r, showNat (z / 10 ^ p) ++ '.' :: trimZeros (showNatPad p (z % 10 ^ p)) ≠ '-' :: r := by
        intro r hr
        cases hs : showNat (z / 10 ^ p) with
        | nil => exact showNat_ne_nil _ hs
        | cons c l =>
          rw [hs] at hr
          have hc : c = '-' := by simpa using (List.cons.inj hr).1
          have := showNat_digits (z / 10 ^ p) c (by rw [hs]; exact List.mem_cons_self)
          rw [hc] at this
          exact absurd this (by decide)
      simp only [Bool.false_eq_true, if_false, List.nil_append]
      rw [← hval]
      unfold decimalValue
      split
      · rename_i r hr; exact absurd hr (hne r)
      · rfl
    · have hle : 0 ≤ q := by
        by_contra hc
        exact absurd (hq (not_le.1 hc)) (by simp)
      rwa [abs_of_nonneg hle] at hbound

/-- C65 (partial).  A float is printed with an error of at most half a unit in the eighth digit after
the point (the fourth for float16).  Missing: numbers below that are not told apart
(`C65_float_counterexample`). -/
theorem C65_float_text_partial (negative : Bool) (q : ℚ) (hq : q < 0 → negative = true) (hq' : 0 < q → negative = false) :
    (∃ x, decimalValue (floatText negative q) = some x ∧ |x - q| ≤ 1 / 2 / 10 ^ 8) ∧
      ∃ x, decimalValue (halfText negative q) = some x ∧ |x - q| ≤ 1 / 2 / 10 ^ 4 :=
  ⟨fixed_value 8 (by decide) negative q hq hq', fixed_value 4 (by decide) negative q hq hq'⟩

/-! ### Where printing loses something -/

/-- C65, counterexample.  Different small numbers print the same, as zero. -/
theorem C65_float_counterexample :
    floatText false (1 / 10 ^ 9) = "0.".toList ∧ floatText false (4 / 10 ^ 9) = "0.".toList := by
  decide +kernel

/-- C65, counterexample.  Empty arrays of different shapes print the same, in both forms. -/
theorem C65_empty_counterexample (text : Int → List Char) (name : List Char) :
    formatStr (View.fresh [0, 3] 8) text = formatStr (View.fresh [0] 8) text ∧
      formatRepr (View.fresh [0, 3] 8) text .plain name = formatRepr (View.fresh [0] 8) text .plain name := by
  exact ⟨rfl, rfl⟩

/-- C65, counterexample.  Quotes are not escaped: an array of two strings and an array of one
string print the same. -/
theorem C65_string_counterexample :
    formatStr (View.fresh [2] 4) (fun p => quotedText (if p = 0 then "a".toList else "b".toList)) =
      formatStr (View.fresh [1] 16) (fun _ => quotedText "a' 'b".toList) := by
  decide +kernel

/-! ### Examples -/

/-- A transposed integer array. -/
example : (formatRepr ⟨0, [2, 3], [8, 16], 8, false, true⟩ (fun p => intText (p / 8 - 2)) .plain []) =
    "array([[-2,  0,  2],\n       [-1,  1,  3]])".toList := by decide +kernel

example : (formatStr (View.fresh [2, 2, 1] 8) fun p => intText (p / 8)) =
    "[[[0]\n  [1]]\n\n [[2]\n  [3]]]".toList := by decide +kernel

/-- The hypotheses of the injectivity theorem hold of these arrays. -/
example : (∀ n ∈ (View.fresh [2, 3] 8).shape, 0 < n) ∧ size (View.fresh [2, 3] 8).shape ≤ 1000 ∧
    size (View.fresh [2, 3] 8).shape ≠ 0 := by decide

/-- An abridged array of 1001 elements. -/
example : (formatStr (View.fresh [1001] 8) fun p => intText (p / 8)) =
    "[   0    1    2 ...  998  999 1000]".toList := by decide +kernel

example : tokens "[[1, 2],\n [3, 4]]".toList = nested false [2, 2] (fun idx => showNat (2 * idx.headD 0 + idx.getLastD 0 + 1)) := by
  decide +kernel

example : floatText true (-5 / 2) = "-2.5".toList ∧ decimalValue "-2.5".toList = some (-5 / 2) := by decide +kernel

end Props
