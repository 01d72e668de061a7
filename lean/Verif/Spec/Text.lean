import Verif.Spec.Nd
/-!
# Specification: texts, fixed-width storage, and the Python string methods

A text is a list of Unicode characters (`Char` is exactly the set of Unicode scalar values).  The
methods are stated the way the Python documentation states them, by what the answer means and not
by a way of computing it.
-/

namespace Spec

/-- The character with code 0, which pads stored strings. -/
def nul : Char := Char.ofNat 0

/-- The text has no padding character in it. -/
def NoNul (s : List Char) : Prop := nul ∉ s

instance (s : List Char) : Decidable (NoNul s) := by unfold NoNul; infer_instance

/-- A text without its trailing padding characters. -/
def trimNul (s : List Char) : List Char := (s.reverse.dropWhile (· = nul)).reverse

/-- `sub` occurs in `s` at position `i`. -/
def OccursAt (sub s : List Char) (i : Nat) : Prop := i ≤ s.length ∧ sub <+: s.drop i

/-- `s.find(sub)`: the lowest position of `sub`, or -1. -/
def IsFind (s sub : List Char) (r : Int) : Prop :=
  (∃ i : Nat, r = i ∧ OccursAt sub s i ∧ ∀ k < i, ¬ OccursAt sub s k) ∨ (r = -1 ∧ ∀ k, ¬ OccursAt sub s k)

/-- `s.rfind(sub)`: the highest position of `sub`, or -1. -/
def IsRfind (s sub : List Char) (r : Int) : Prop :=
  (∃ i : Nat, r = i ∧ OccursAt sub s i ∧ ∀ k, i < k → ¬ OccursAt sub s k) ∨ (r = -1 ∧ ∀ k, ¬ OccursAt sub s k)

/-- Positions at which `sub` occurs, from left to right and without overlap. -/
def Apart (sub s : List Char) (ps : List Nat) : Prop :=
  (∀ p ∈ ps, OccursAt sub s p) ∧ ps.Pairwise fun p q => p < q ∧ p + sub.length ≤ q

/-- `s.count(sub)`: the number of non-overlapping occurrences, i.e. the most that fit. -/
def IsCount (s sub : List Char) (r : Int) : Prop :=
  (∃ ps, Apart sub s ps ∧ r = ps.length) ∧ ∀ ps, Apart sub s ps → (ps.length : Int) ≤ r

/-- `s.split(sub, limit)` for non-empty `sub`: `s` is cut at the leftmost occurrence, again in
what follows it, and so on, at most `limit` times. -/
inductive IsSplit (sub : List Char) : Option Nat → List Char → List (List Char) → Prop
  | done {limit s} : limit = some 0 ∨ (∀ i, ¬ OccursAt sub s i) → IsSplit sub limit s [s]
  | step {limit s i pieces} : limit ≠ some 0 → OccursAt sub s i → (∀ k < i, ¬ OccursAt sub s k) →
      IsSplit sub (limit.map (· - 1)) (s.drop (i + sub.length)) pieces →
      IsSplit sub limit s (s.take i :: pieces)

/-- `s.replace(old, new, limit)` for non-empty `old`: the pieces between the occurrences, joined
by `new`. -/
def IsReplace (s old new : List Char) (limit : Option Nat) (r : List Char) : Prop :=
  ∃ pieces, IsSplit old limit s pieces ∧ r = new.intercalate pieces

/-- `s.replace("", new)`: `new` before every character and at the end. -/
def replaceEmpty (s new : List Char) : List Char := new ++ s.flatMap fun c => c :: new

/-- `s.partition(sep)`. -/
def IsPartition (s sep : List Char) (before mid after : List Char) : Prop :=
  (s = before ++ sep ++ after ∧ mid = sep ∧ ∀ k < before.length, ¬ OccursAt sep s k) ∨
  ((∀ k, ¬ OccursAt sep s k) ∧ before = s ∧ mid = [] ∧ after = [])

/-- `s.rpartition(sep)`. -/
def IsRpartition (s sep : List Char) (before mid after : List Char) : Prop :=
  (s = before ++ sep ++ after ∧ mid = sep ∧ ∀ k, before.length < k → ¬ OccursAt sep s k) ∨
  ((∀ k, ¬ OccursAt sep s k) ∧ before = [] ∧ mid = [] ∧ after = s)

/-- What Python's `str.isspace` says of a character. -/
def pySpace (c : Char) : Prop :=
  (9 ≤ c.toNat ∧ c.toNat ≤ 13) ∨ (28 ≤ c.toNat ∧ c.toNat ≤ 32) ∨ c.toNat = 0x85 ∨ c.toNat = 0xA0 ∨
  c.toNat = 0x1680 ∨ (0x2000 ≤ c.toNat ∧ c.toNat ≤ 0x200A) ∨ c.toNat = 0x2028 ∨ c.toNat = 0x2029 ∨
  c.toNat = 0x202F ∨ c.toNat = 0x205F ∨ c.toNat = 0x3000

instance (c : Char) : Decidable (pySpace c) := by unfold pySpace; infer_instance

/-- `s.strip()` (`left` and `right`), `s.lstrip()` (`left` only), `s.rstrip()` (`right` only):
what is taken off is white space, and no more can be taken off. -/
def IsStrip (left right : Bool) (s r : List Char) : Prop :=
  ∃ a b, s = a ++ r ++ b ∧ (∀ c ∈ a, pySpace c) ∧ (∀ c ∈ b, pySpace c) ∧
    (left = false → a = []) ∧ (right = false → b = []) ∧
    (left = true → ∀ c, r.head? = some c → ¬ pySpace c) ∧
    (right = true → ∀ c, r.getLast? = some c → ¬ pySpace c)

/-- `s.ljust(width, fill)`. -/
def ljust (s : List Char) (width : Nat) (fill : Char) : List Char := s ++ List.replicate (width - s.length) fill

/-- `s.rjust(width, fill)`. -/
def rjust (s : List Char) (width : Nat) (fill : Char) : List Char := List.replicate (width - s.length) fill ++ s

/-- `s.center(width, fill)`: when the padding is odd, CPython puts the extra character on the left
if the width is odd, else on the right. -/
def center (s : List Char) (width : Nat) (fill : Char) : List Char :=
  let pad := width - s.length
  let left := pad / 2 + (if pad % 2 = 1 ∧ width % 2 = 1 then 1 else 0)
  List.replicate left fill ++ s ++ List.replicate (pad - left) fill

/-- `s.zfill(width)`: zeros after the sign, if there is one. -/
def zfill (s : List Char) (width : Nat) : List Char :=
  let zeros := List.replicate (width - s.length) '0'
  match s with
  | '+' :: r => '+' :: (zeros ++ r)
  | '-' :: r => '-' :: (zeros ++ r)
  | s => zeros ++ s

/-- `sep.join(s)`: `sep` between the characters of `s`. -/
def joinChars (sep s : List Char) : List Char := sep.intercalate (s.map fun c => [c])

/-- The column reached after printing a text: the characters since the last line break. -/
def column (out : List Char) : Nat := (out.reverse.takeWhile fun c => c ≠ '\n' ∧ c ≠ '\r').length

/-- `s.expandtabs(tabsize)`: every tab becomes the spaces up to the next multiple of `tabsize`. -/
def expandtabs (tabsize : Nat) (s : List Char) : List Char :=
  s.foldl (fun out c => out ++ if c = '\t' then
    (if tabsize = 0 then [] else List.replicate (tabsize - column out % tabsize) ' ') else [c]) []

/-- Dictionary order: after a common beginning the first list ends, or has the smaller element. -/
def DictLt (lt : α → α → Prop) (s t : List α) : Prop :=
  ∃ p, (∃ b r, s = p ∧ t = p ++ b :: r) ∨ ∃ a b q r, s = p ++ a :: q ∧ t = p ++ b :: r ∧ lt a b

/-- Dictionary order of texts, by code points. -/
def TextLt (s t : List Char) : Prop := DictLt (fun a b => a.toNat < b.toNat) s t

end Spec
