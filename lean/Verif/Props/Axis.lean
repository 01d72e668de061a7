import Verif.Model.Axis

/-!
# C109: an axis argument means the same axis in every function
-/

namespace Props

open Spec Rumpy

/-- Functions whose axis counts from the front only. -/
def _root_.Spec.AxisFn.Unsigned : AxisFn → Prop
  | .percentile | .compress | .methodCum | .methodPtp | .methodRepeat | .concatenate | .split | .arraySplit => True
  | _ => False

/-- Functions that do not refuse an axis out of range by an exception. -/
def _root_.Spec.AxisFn.Lax : AxisFn → Prop
  | .sort | .argsort | .partition | .argpartition | .methodSort | .methodArgsort | .diff | .packbits | .unpackbits | .roll => True
  | _ => False

theorem axis_unique {n : Nat} {a : Int} {k l : Nat} (h : MeansAxis n a k) (g : MeansAxis n a l) : k = l := by
  obtain ⟨h1, h2⟩ := h
  obtain ⟨g1, g2⟩ := g
  omega

theorem castAxis_of {n : Nat} (hn : n < 2 ^ 63) {a : Int} {k : Nat} (h : MeansAxis n a k) :
    (-2 ^ 63 ≤ a ∧ a < 2 ^ 63) ∧ castAxis n a = k := by
  obtain ⟨h1, h2⟩ := h
  refine ⟨⟨by omega, by omega⟩, ?_⟩
  unfold castAxis
  split
  · rw [Int.emod_eq_of_lt (by omega) (by omega)]
    omega
  · rw [Int.emod_eq_of_lt (by omega) (by omega)]
    omega

theorem castAxis_lt {n : Nat} (hn : n < 2 ^ 63) {a : Int} (ha : -2 ^ 63 ≤ a ∧ a < 2 ^ 63) (h : castAxis n a < n) :
    MeansAxis n a (castAxis n a) := by
  refine ⟨h, ?_⟩
  unfold castAxis at h ⊢
  split at h
  · next hneg =>
    rw [if_pos hneg]
    by_cases h0 : 0 ≤ (n : Int) + a
    · rw [Int.emod_eq_of_lt h0 (by omega)]
      right
      omega
    · have : ((n : Int) + a) % 2 ^ 64 = (n : Int) + a + 2 ^ 64 := by
        rw [← Int.add_emod_right, Int.emod_eq_of_lt (by omega) (by omega)]
      rw [this] at h
      omega
  · next hneg =>
    rw [if_neg hneg, Int.emod_eq_of_lt (by omega) (by omega)]
    left
    omega

theorem signed_of {none bad : Outcome AxisUse} {n : Nat} (hn : n < 2 ^ 63) {a : Int} {k : Nat} (h : MeansAxis n a k) :
    signedAxis none bad n (some a) = .ok (.along k) := by
  obtain ⟨h1, h2⟩ := castAxis_of hn h
  show (if _ then _ else _) = _
  rw [if_pos h1, h2, if_pos h.1]

theorem signed_bad {none bad : Outcome AxisUse} {n : Nat} (hn : n < 2 ^ 63) {a : Int} (ha : -2 ^ 63 ≤ a ∧ a < 2 ^ 63)
    (h : ∀ k, ¬ MeansAxis n a k) : signedAxis none bad n (some a) = bad := by
  show (if _ then _ else _) = _
  rw [if_pos ha, if_neg fun hc => h _ (castAxis_lt hn ha hc)]

theorem signed_error {none : Outcome AxisUse} {n : Nat} (hn : n < 2 ^ 63) {a : Int} (h : ∀ k, ¬ MeansAxis n a k) :
    signedAxis none .error n (some a) = .error := by
  by_cases ha : -2 ^ 63 ≤ a ∧ a < 2 ^ 63
  · exact signed_bad hn ha h
  · show (if _ then _ else _) = _
    rw [if_neg ha]

theorem unsigned_of {none : Outcome AxisUse} {n : Nat} (hn : n < 2 ^ 63) {a : Int} {k : Nat} (h : MeansAxis n a k) (ha : 0 ≤ a) :
    unsignedAxis none n (some a) = .ok (.along k) := by
  obtain ⟨h1, h2⟩ := h
  have hk : a.toNat = k := by omega
  have hr : 0 ≤ a ∧ a < 2 ^ 64 := ⟨ha, by omega⟩
  show (if _ then _ else _) = _
  rw [if_pos hr, hk, if_pos h1]

theorem unsigned_error {none : Outcome AxisUse} {n : Nat} {a : Int} (h : ∀ k, ¬ MeansAxis n a k) :
    unsignedAxis none n (some a) = .error := by
  show (if _ then _ else _) = _
  split
  · next ha =>
    rw [if_neg]
    intro hc
    exact h a.toNat ⟨hc, Or.inl (by omega)⟩
  · rfl

/-- C109: in every function and method of the list but those that count from the front only, an integer that means an axis is read
as this axis, also when it is negative. -/
theorem C109_signed (f : AxisFn) (hf : ¬ f.Unsigned) (n : Nat) (hn : n < 2 ^ 63) (a : Int) (k : Nat) (h : MeansAxis n a k) :
    readAxis f n (.int a) = .ok (.along k) := by
  cases f <;> first | exact absurd trivial hf | (simp only [readAxis, withDefault]; exact signed_of hn h)

example : MeansAxis 3 (-1) 2 ∧ readAxis .diff 3 (.int (-1)) = .ok (.along 2) := ⟨⟨by decide, by decide⟩, by decide⟩

/-- C109: an axis counted from the front is read as this axis by the other functions too. -/
theorem C109_front (f : AxisFn) (n : Nat) (hn : n < 2 ^ 63) (a : Int) (ha : 0 ≤ a) (k : Nat) (h : MeansAxis n a k) :
    readAxis f n (.int a) = .ok (.along k) := by
  by_cases hf : f.Unsigned
  · cases f <;> first | exact hf.elim | (simp only [readAxis, withDefault]; exact unsigned_of hn h ha)
  · exact C109_signed f hf n hn a k h

example : MeansAxis 3 2 2 ∧ readAxis .percentile 3 (.int 2) = .ok (.along 2) := ⟨⟨by decide, by decide⟩, by decide⟩

/-- C109 (partial): an integer that means no axis is refused with an exception, however large it is.  Missing: the functions that are
`Lax`, and `unwrap` and `trapezoid` of an array without axes. -/
theorem C109_refused_partial (f : AxisFn) (hf : ¬ f.Lax) (n : Nat) (hn : n < 2 ^ 63) (h0 : f = .unwrap ∨ f = .trapezoid → n ≠ 0) (a : Int)
    (h : ∀ k, ¬ MeansAxis n a k) : readAxis f n (.int a) = .error := by
  cases f <;> first
    | exact absurd trivial hf
    | (simp only [readAxis, withDefault]; exact signed_error hn h)
    | (simp only [readAxis, withDefault]; exact unsigned_error h)
    | skip
  · simp only [readAxis, withDefault]
    rw [if_neg (h0 (Or.inl rfl))]
    exact signed_error hn h
  · simp only [readAxis, withDefault]
    rw [if_neg (h0 (Or.inr rfl))]
    exact signed_error hn h

example : (∀ k, ¬ MeansAxis 2 (-3) k) ∧ readAxis .cumsum 2 (.int (-3)) = .error ∧ readAxis .split 2 (.int 2) = .error ∧
    readAxis .flip 2 (.int (2 ^ 70)) = .error := by
  refine ⟨?_, by decide, by decide, by decide⟩
  rintro k ⟨h1, h2⟩
  omega

/-- C109: the sorting functions and `diff` panic instead, for every 64-bit integer that means no axis (NumPy: AxisError). -/
theorem C109_panic_counterexample (f : AxisFn)
    (hf : f = .sort ∨ f = .argsort ∨ f = .partition ∨ f = .argpartition ∨ f = .methodSort ∨ f = .methodArgsort ∨ f = .diff) (n : Nat)
    (hn : n < 2 ^ 63) (a : Int) (ha : -2 ^ 63 ≤ a ∧ a < 2 ^ 63) (h : ∀ k, ¬ MeansAxis n a k) : readAxis f n (.int a) = .panic := by
  rcases hf with rfl | rfl | rfl | rfl | rfl | rfl | rfl <;> simp only [readAxis, withDefault] <;> exact signed_bad hn ha h

example : readAxis .sort 2 (.int 2) = .panic ∧ readAxis .sort 0 .omitted = .panic := by decide

/-- C109: `packbits` and `unpackbits` take such an axis for None, and `roll` returns the array unchanged (NumPy: AxisError). -/
theorem C109_ignored_counterexample (n : Nat) (hn : n < 2 ^ 63) (a : Int) (ha : -2 ^ 63 ≤ a ∧ a < 2 ^ 63) (h : ∀ k, ¬ MeansAxis n a k) :
    readAxis .packbits n (.int a) = .ok .all ∧ readAxis .unpackbits n (.int a) = .ok .all ∧ readAxis .roll n (.int a) = .ok .nothing := by
  simp only [readAxis, withDefault]
  exact ⟨signed_bad hn ha h, signed_bad hn ha h, signed_bad hn ha h⟩

example : readAxis .packbits 2 (.int 2) = .ok .all ∧ readAxis .roll 2 (.int (-3)) = .ok .nothing := by decide

/-- C109: the functions that count from the front only refuse every axis counted from the end, though it means one in NumPy; so
`a.cumsum(axis=-1)` is refused where `cumsum(a, axis=-1)` is not. -/
theorem C109_negative_counterexample (f : AxisFn) (hf : f.Unsigned) (n : Nat) (a : Int) (ha : a < 0) : readAxis f n (.int a) = .error := by
  have : ∀ none, unsignedAxis none n (some a) = .error := by
    intro none
    show (if _ then _ else _) = _
    rw [if_neg (by omega)]
  cases f <;> first | exact hf.elim | (simp only [readAxis, withDefault]; exact this _)

example : MeansAxis 2 (-1) 1 ∧ readAxis .methodCum 2 (.int (-1)) = .error ∧ readAxis .cumsum 2 (.int (-1)) = .ok (.along 1) :=
  ⟨⟨by decide, by decide⟩, by decide, by decide⟩

/-! ### Defaults -/

/-- What a default stands for. -/
def UsesAxis (n : Nat) (r : Outcome AxisUse) : Option Int → Prop
  | none => r = .ok .all
  | some a => ∃ k, MeansAxis n a k ∧ r = .ok (.along k)

/-- C109 (partial): without the argument a function does what NumPy's default says, if the array has at least one axis.  Missing:
`argsort` as a method, and `cumulative_sum` and `cumulative_prod`, which have no default here. -/
theorem C109_default_partial (f : AxisFn) (hf : f ≠ .methodArgsort ∧ f ≠ .cumulativeSum ∧ f ≠ .cumulativeProd) (n : Nat) (hn : n < 2 ^ 63)
    (h0 : n ≠ 0) (d : Option Int) (hd : f.default = some d) : UsesAxis n (readAxis f n .omitted) d := by
  have last : MeansAxis n (-1) (n - 1) := ⟨by omega, Or.inr (by omega)⟩
  have first : MeansAxis n 0 0 := ⟨by omega, Or.inl rfl⟩
  have hu : ∀ none, unsignedAxis none n (some 0) = .ok (.along 0) := by
    intro none
    simp only [unsignedAxis]
    rw [if_pos ⟨by omega, by decide⟩, if_pos (by omega)]
    rfl
  cases f <;> cases hd <;> first
    | rfl
    | (simp only [readAxis, withDefault]; exact ⟨_, last, signed_of hn last⟩)
    | (simp only [readAxis, withDefault]; exact ⟨_, first, signed_of hn first⟩)
    | (simp only [readAxis, withDefault]; exact ⟨_, first, hu _⟩)
    | exact absurd rfl hf.1
    | exact absurd rfl hf.2.1
    | exact absurd rfl hf.2.2
    | skip
  refine ⟨_, last, ?_⟩
  show (if n = 0 then _ else _) = _
  rw [if_neg h0]

/-- C109: `a.argsort()` of a matrix sorts the flattened array, `argsort(a)` each row (NumPy: each row in both). -/
theorem C109_argsort_counterexample : readAxis .methodArgsort 2 .omitted = .ok .all ∧ readAxis .argsort 2 .omitted = .ok (.along 1) := by
  decide

/-- C109: `cumulative_sum` of a vector without an axis is refused (NumPy: along the only axis). -/
theorem C109_cumulative_counterexample (n : Nat) : readAxis .cumulativeSum n .omitted = .error ∧ readAxis .cumulativeProd n .omitted = .error :=
  ⟨rfl, rfl⟩

/-! ### New axes, and two axes -/

/-- C109: `expand_dims` puts the new axis where the integer says in the result, and refuses exactly the integers that mean no axis of
the result. -/
theorem C109_expand_dims (n : Nat) (hn : n + 1 < 2 ^ 63) (a : Int) :
    (∀ k, MeansAxis (n + 1) a k → expandAxis n a = .ok k) ∧ ((∀ k, ¬ MeansAxis (n + 1) a k) → expandAxis n a = .error) := by
  constructor
  · rintro k ⟨h1, h2⟩
    unfold expandAxis
    rw [if_pos ⟨by omega, by omega⟩]
    dsimp only
    have : ((if a < 0 then (n : Int) + a + 1 else a) % 2 ^ 64).toNat = k := by
      split <;> rw [Int.emod_eq_of_lt (by omega) (by omega)] <;> omega
    rw [this, if_neg (by omega)]
  · intro h
    unfold expandAxis
    split
    · next ha =>
      dsimp only
      rw [if_pos]
      by_contra hc
      by_cases hneg : a < 0
      · rw [if_pos hneg] at hc
        by_cases h0 : 0 ≤ (n : Int) + a + 1
        · exact h ((n : Int) + a + 1).toNat ⟨by omega, Or.inr (by omega)⟩
        · have : ((n : Int) + a + 1) % 2 ^ 64 = (n : Int) + a + 1 + 2 ^ 64 := by
            rw [← Int.add_emod_right, Int.emod_eq_of_lt (by omega) (by omega)]
          rw [this] at hc
          omega
      · rw [if_neg hneg, Int.emod_eq_of_lt (by omega) (by omega)] at hc
        exact h a.toNat ⟨by omega, Or.inl (by omega)⟩
    · rfl

example : expandAxis 2 (-1) = .ok 2 ∧ expandAxis 2 2 = .ok 2 ∧ expandAxis 2 3 = .error ∧ expandAxis 2 (-4) = .error := by decide

/-- C109 (partial): the same for `stack`, counted from the front.  Missing: an axis counted from the end is refused. -/
theorem C109_stack_partial (n : Nat) (hn : n < 2 ^ 63) (a : Int) (ha : 0 ≤ a) :
    (∀ k, MeansAxis (n + 1) a k → stackAxis n a = .ok k) ∧ ((∀ k, ¬ MeansAxis (n + 1) a k) → stackAxis n a = .error) := by
  constructor
  · rintro k ⟨h1, h2⟩
    unfold stackAxis
    rw [if_pos ⟨ha, by omega⟩, if_neg (by omega)]
    congr 1
    omega
  · intro h
    unfold stackAxis
    split
    · rw [if_pos]
      by_contra hc
      exact h a.toNat ⟨by omega, Or.inl (by omega)⟩
    · rfl

theorem C109_stack_counterexample : MeansAxis 2 (-1) 1 ∧ stackAxis 1 (-1) = .error := ⟨⟨by decide, by decide⟩, by decide⟩

/-- C109: `rot90` turns in the plane of the two axes that are meant, and refuses two integers that mean one axis or none. -/
theorem C109_rot90 (n : Nat) (hn : n < 2 ^ 63) (a b : Int) :
    (∀ k l, MeansAxis n a k → MeansAxis n b l → k ≠ l → rot90Axes n a b = .ok (k, l)) ∧
    ((∀ k l, MeansAxis n a k → MeansAxis n b l → k = l) → rot90Axes n a b = .error) := by
  constructor
  · intro k l hk hl hne
    obtain ⟨h1, h2⟩ := castAxis_of hn hk
    obtain ⟨g1, g2⟩ := castAxis_of hn hl
    unfold rot90Axes
    have := hk.1
    have := hl.1
    rw [if_pos ⟨h1, g1⟩, h2, g2, if_neg (by omega), if_neg (by omega), if_neg hne]
  · intro h
    unfold rot90Axes
    split
    · next hr =>
      split
      · rfl
      · split
        · rfl
        · next hlt =>
          rw [not_or, Nat.not_le, Nat.not_le] at hlt
          rw [if_pos (h _ _ (castAxis_lt hn hr.1 hlt.1) (castAxis_lt hn hr.2 hlt.2))]
    · rfl

example : rot90Axes 3 0 (-1) = .ok (0, 2) ∧ rot90Axes 3 2 (-1) = .error ∧ rot90Axes 3 0 3 = .error := by decide

end Props
