import Verif.Lemmas.Copy
import Verif.Lemmas.Text
import Verif.Model.Io
import Mathlib.Data.List.Infix
/-!
# Lemmas: files
-/

namespace Rumpy
open Spec

theorem readExact_append {n : Nat} {a : List UInt8} (h : a.length = n) (b : List UInt8) :
    readExact n (a ++ b) = some (a, b) := by
  subst h
  simp [readExact]

theorem readExact_some {n : Nat} {bs a b : List UInt8} (h : readExact n bs = some (a, b)) :
    bs = a ++ b ∧ a.length = n := by
  unfold readExact at h
  split at h
  · rename_i hn
    simp only [Option.some.injEq, Prod.mk.injEq] at h
    obtain ⟨rfl, rfl⟩ := h
    simp [hn]
  · simp at h

theorem leBytes_length (k n : Nat) : (leBytes k n).length = k := by
  induction k generalizing n with
  | zero => rfl
  | succ k ih => simp [leBytes, ih]

theorem fromLe_leBytes (k n : Nat) (h : n < 256 ^ k) : fromLe (leBytes k n) = n := by
  induction k generalizing n with
  | zero => simp at h; simp [leBytes, fromLe, h]
  | succ k ih =>
    have h1 : n / 256 < 256 ^ k := by
      rw [pow_succ] at h
      exact Nat.div_lt_of_lt_mul (by rw [Nat.mul_comm]; exact h)
    rw [leBytes, fromLe, ih _ h1]
    have h2 : ((n % 256).toUInt8).toNat = n % 256 := by
      show (UInt8.ofNat (n % 256)).toNat = _
      rw [UInt8.toNat_ofNat']
      simp
    rw [h2]
    omega

/-- The text after the first place where the pattern occurs. -/
theorem afterPattern_found (pat pre rest : List Char)
    (h : ∀ k < pre.length, ¬ pat <+: (pre ++ pat).drop k) : afterPattern pat (pre ++ pat ++ rest) = some rest := by
  induction pre with
  | nil =>
    cases pat with
    | nil => cases rest <;> simp [afterPattern]
    | cons a p =>
      have : (a :: p).isPrefixOf (a :: (p ++ rest)) = true := by
        rw [List.isPrefixOf_iff_prefix]; exact ⟨rest, rfl⟩
      simp only [List.nil_append, List.cons_append, afterPattern, this, if_true]
      simp
  | cons c pre ih =>
    have h0 : pat.isPrefixOf (c :: (pre ++ pat ++ rest)) = false := by
      rw [Bool.eq_false_iff]
      intro hp
      rw [List.isPrefixOf_iff_prefix] at hp
      apply h 0 (by simp)
      have h1 : (c :: (pre ++ pat)) <+: (c :: (pre ++ pat ++ rest)) := ⟨rest, by simp⟩
      simpa using List.prefix_of_prefix_length_le hp h1 (by simp; omega)
    simp only [List.cons_append, afterPattern]
    rw [h0]
    simp only [Bool.false_eq_true, if_false]
    refine ih fun k hk => ?_
    have := h (k + 1) (by simpa using hk)
    simpa using this

theorem splitOn_no_comma {s : List Char} (h : ∀ c ∈ s, c ≠ ',') : s.splitOn ',' = [s] := by
  unfold List.splitOn
  induction s with
  | nil => rfl
  | cons c s ih =>
    rw [List.splitOnP_cons_eq_if_modifyHead]
    have hc : (c == ',') = false := by simpa using h c (by simp)
    rw [hc, ih (fun x hx => h x (by simp [hx]))]
    rfl

theorem splitOn_comma (s t : List Char) (h : ∀ c ∈ s, c ≠ ',') : (s ++ ',' :: t).splitOn ',' = s :: t.splitOn ',' := by
  unfold List.splitOn
  rw [List.splitOnP_append_cons _ _ (by decide)]
  have := splitOn_no_comma h
  unfold List.splitOn at this
  rw [this]
  rfl

/-- The reading of an entry of the shape. -/
def shapeEntry (s : List Char) : Option Nat := if (trimStr s).isEmpty then none else parseUsize (trimStr s)

theorem trimStr_space (s : List Char) : trimStr (' ' :: s) = trimStr s := by
  unfold trimStr
  rw [List.dropWhile_cons_of_pos (by decide)]

theorem dropWhile_none {p : α → Bool} {l : List α} (h : ∀ x ∈ l, p x = false) : l.dropWhile p = l := by
  cases l with
  | nil => rfl
  | cons a l => exact List.dropWhile_cons_of_neg (by simp [h a (by simp)])

theorem digit_not_space {c : Char} (h : c.isDigit = true) : isSpaceChar c = false := by
  have : 48 ≤ c.toNat ∧ c.toNat ≤ 57 := by
    simp only [Char.isDigit, Bool.and_eq_true, decide_eq_true_eq] at h
    exact ⟨UInt32.le_iff_toNat_le.1 h.1, UInt32.le_iff_toNat_le.1 h.2⟩
  unfold isSpaceChar
  simp only [Bool.or_eq_false_iff, Bool.and_eq_false_iff, beq_eq_false_iff_ne, decide_eq_false_iff_not]
  omega

theorem trimStr_digits {s : List Char} (h : ∀ c ∈ s, c.isDigit = true) : trimStr s = s := by
  unfold trimStr
  rw [dropWhile_none (fun c hc => digit_not_space (h c hc)),
    dropWhile_none (fun c hc => digit_not_space (h c (List.mem_reverse.1 hc))), List.reverse_reverse]

theorem shapeEntry_showNat {n : Nat} (h : n < 2 ^ 64) : shapeEntry (showNat n) = some n := by
  unfold shapeEntry
  rw [trimStr_digits (showNat_digits n)]
  have : (showNat n).isEmpty = false := by
    have := showNat_ne_nil n
    cases hs : showNat n with
    | nil => exact absurd hs this
    | cons _ _ => rfl
  rw [this]
  simp only [Bool.false_eq_true, if_false]
  exact parseUsize_digits (showNat_digits n) (parseDigits_showNat n) h

theorem shapeEntry_space (s : List Char) : shapeEntry (' ' :: s) = shapeEntry s := by
  unfold shapeEntry
  rw [trimStr_space]

theorem splitOn_space (t : List Char) :
    ((' ' :: t).splitOn ',').filterMap shapeEntry = (t.splitOn ',').filterMap shapeEntry := by
  unfold List.splitOn
  rw [List.splitOnP_cons_eq_if_modifyHead]
  simp only [show ((' ' : Char) == ',') = false by decide, Bool.false_eq_true, if_false]
  cases List.splitOnP (fun x => x == ',') t with
  | nil => rfl
  | cons a l => simp [List.filterMap_cons, shapeEntry_space]

theorem digits_ne_comma (n : Nat) : ∀ c ∈ showNat n, c ≠ ',' := by
  rintro c hc rfl
  exact absurd (showNat_digits n _ hc) (by decide)

/-- The list of the dimensions is read back. -/
theorem read_dims (shape : List Nat) (h : ∀ n ∈ shape, n < 2 ^ 64) :
    ((List.intercalate ", ".toList (shape.map showNat)).splitOn ',').filterMap shapeEntry = shape := by
  induction shape with
  | nil => decide
  | cons n shape ih =>
    have ih := ih fun m hm => h m (by simp [hm])
    have hn := h n (by simp)
    cases shape with
    | nil =>
      have : List.intercalate ", ".toList ([n].map showNat) = showNat n := by simp [List.intercalate]
      rw [this, splitOn_no_comma (digits_ne_comma n)]
      simp [shapeEntry_showNat hn]
    | cons m shape =>
      have : List.intercalate ", ".toList ((n :: m :: shape).map showNat) =
          showNat n ++ ',' :: ' ' :: List.intercalate ", ".toList ((m :: shape).map showNat) := by
        simp [List.intercalate]
      rw [this, splitOn_comma _ _ (digits_ne_comma n), List.filterMap_cons, shapeEntry_showNat hn]
      simp only
      rw [splitOn_space, ih]

theorem read_dims_one (n : Nat) (h : n < 2 ^ 64) :
    ((showNat n ++ [',']).splitOn ',').filterMap shapeEntry = [n] := by
  rw [splitOn_comma _ _ (digits_ne_comma n), List.filterMap_cons, shapeEntry_showNat h]
  rfl

theorem flatten_length_const {l : List (List α)} {k : Nat} (h : ∀ x ∈ l, x.length = k) : l.flatten.length = l.length * k := by
  induction l with
  | nil => simp
  | cons a l ih =>
    rw [List.flatten_cons, List.length_append, ih fun x hx => h x (by simp [hx]), h a (by simp), List.length_cons]
    ring

theorem flatten_block {l : List (List α)} {k : Nat} (h : ∀ x ∈ l, x.length = k) (i : Nat) (hi : i < l.length) :
    (l.flatten.drop (i * k)).take k = l[i] := by
  induction l generalizing i with
  | nil => simp at hi
  | cons a l ih =>
    have ha : a.length = k := h a (by simp)
    cases i with
    | zero => simp [← ha]
    | succ i =>
      have hi' : i < l.length := by simpa using hi
      have e : (i + 1) * k = a.length + i * k := by rw [ha]; ring
      rw [List.flatten_cons, e, ← List.drop_drop, List.drop_left]
      simpa using ih (fun x hx => h x (by simp [hx])) i hi'

theorem elemBytes_length (mem : Int → UInt8) (item : Nat) (a : Int) : (elemBytes mem item a).length = item := by
  simp [elemBytes]

/-- Contiguous bytes are those of the elements, one after the other. -/
theorem range_blocks (f : Nat → β) (n k : Nat) :
    (List.range (n * k)).map f = ((List.range n).map fun i => (List.range k).map fun j => f (i * k + j)).flatten := by
  induction n with
  | zero => simp
  | succ n ih =>
    rw [List.range_succ, List.map_append, List.flatten_append, ← ih, Nat.succ_mul, List.range_add, List.map_append]
    simp [Function.comp_def]

end Rumpy
