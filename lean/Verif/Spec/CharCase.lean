import Verif.Spec.Text
/-!
# Specification: letter case and kinds of characters

What Python's `str` methods say about a text, in terms of the Unicode character database.
-/

namespace Spec

/-- The parts of the Unicode character database that `str` methods of Python, or the methods of Rust's `char`, look at. -/
structure Unicode where
  /-- The full case mappings (one character may become several). -/
  upper : Char → List Char
  lower : Char → List Char
  title : Char → List Char
  /-- The properties Uppercase and Lowercase, and the category Lt. -/
  isUpper : Char → Bool
  isLower : Char → Bool
  isTitle : Char → Bool
  /-- The property Case_Ignorable. -/
  ignorable : Char → Bool
  /-- The categories of letters (`str.isalpha`), and the property Alphabetic (`char::is_alphabetic`). -/
  letter : Char → Bool
  alphabetic : Char → Bool
  /-- `str.isdecimal`, `str.isdigit` and `str.isnumeric` of one character: its numeric type. -/
  decimal : Char → Bool
  digit : Char → Bool
  numeric : Char → Bool
  /-- The categories of numbers (`char::is_numeric`). -/
  number : Char → Bool

/-- `A` to `Z`, `a` to `z`, `0` to `9`. -/
def asciiUpper (c : Char) : Bool := decide (65 ≤ c.toNat ∧ c.toNat ≤ 90)
def asciiLower (c : Char) : Bool := decide (97 ≤ c.toNat ∧ c.toNat ≤ 122)
def asciiDigit (c : Char) : Bool := decide (48 ≤ c.toNat ∧ c.toNat ≤ 57)

/-- What the database says about ASCII. -/
structure Unicode.Ascii (U : Unicode) : Prop where
  upper : ∀ c, c.toNat < 128 → U.upper c = [if asciiLower c then Char.ofNat (c.toNat - 32) else c]
  lower : ∀ c, c.toNat < 128 → U.lower c = [if asciiUpper c then Char.ofNat (c.toNat + 32) else c]
  title : ∀ c, c.toNat < 128 → U.title c = U.upper c
  isUpper : ∀ c, c.toNat < 128 → U.isUpper c = asciiUpper c
  isLower : ∀ c, c.toNat < 128 → U.isLower c = asciiLower c
  isTitle : ∀ c, c.toNat < 128 → U.isTitle c = false
  letter : ∀ c, c.toNat < 128 → U.letter c = (asciiUpper c || asciiLower c)
  decimal : ∀ c, c.toNat < 128 → U.decimal c = asciiDigit c
  digit : ∀ c, c.toNat < 128 → U.digit c = asciiDigit c
  numeric : ∀ c, c.toNat < 128 → U.numeric c = asciiDigit c
  number : ∀ c, c.toNat < 128 → U.number c = asciiDigit c

/-- A character with case. -/
def Unicode.cased (U : Unicode) (c : Char) : Bool := U.isUpper c || U.isLower c || U.isTitle c

/-- The character before position `i` has case. -/
def prevCased (U : Unicode) (s : List Char) (i : Nat) : Bool := decide (i ≠ 0) && (s[i - 1]?).any U.cased

/-- A capital sigma at position `i` ends a word. -/
def finalSigma (U : Unicode) (s : List Char) (i : Nat) : Bool :=
  (((s.take i).reverse.dropWhile U.ignorable).head?).any U.cased && !(((s.drop (i + 1)).dropWhile U.ignorable).head?).any U.cased

/-- The lower case of the character `c` at position `i`. -/
def lowerAt (U : Unicode) (s : List Char) (c : Char) (i : Nat) : List Char :=
  if c = 'Σ' then (if finalSigma U s i then ['ς'] else ['σ']) else U.lower c

/-- A text made from what every character becomes. -/
def eachAt (s : List Char) (f : Char → Nat → List Char) : List Char := s.zipIdx.flatMap fun ci => f ci.1 ci.2

/-- `s.upper()`, `s.lower()`, `s.swapcase()`, `s.capitalize()` and `s.title()`. -/
def pyUpper (U : Unicode) (s : List Char) : List Char := eachAt s fun c _ => U.upper c
def pyLower (U : Unicode) (s : List Char) : List Char := eachAt s (lowerAt U s)
def pySwapcase (U : Unicode) (s : List Char) : List Char :=
  eachAt s fun c i => if U.isUpper c then lowerAt U s c i else if U.isLower c then U.upper c else [c]
def pyCapitalize (U : Unicode) (s : List Char) : List Char := eachAt s fun c i => if i = 0 then U.title c else lowerAt U s c i
def pyTitle (U : Unicode) (s : List Char) : List Char :=
  eachAt s fun c i => if prevCased U s i then lowerAt U s c i else U.title c

/-- There is a character, and all are of the kind `p`: `isalpha`, `isdecimal`, `isdigit`, `isnumeric`, `isalnum`, `isspace`. -/
def AllKind (p : Char → Prop) (s : List Char) : Prop := s ≠ [] ∧ ∀ c ∈ s, p c

def pyAlnum (U : Unicode) (c : Char) : Prop := U.letter c = true ∨ U.decimal c = true ∨ U.digit c = true ∨ U.numeric c = true

/-- `s.isupper()`, `s.islower()`: some character has case, and those that have are capitals (small). -/
def IsUpperText (U : Unicode) (s : List Char) : Prop :=
  (∃ c ∈ s, U.cased c = true) ∧ ∀ c ∈ s, U.cased c = true → U.isUpper c = true
def IsLowerText (U : Unicode) (s : List Char) : Prop :=
  (∃ c ∈ s, U.cased c = true) ∧ ∀ c ∈ s, U.cased c = true → U.isLower c = true

/-- `s.istitle()`: some character has case, capitals only follow characters without case, small letters only those with. -/
def IsTitleText (U : Unicode) (s : List Char) : Prop :=
  (∃ c ∈ s, U.cased c = true) ∧
    ∀ i c, s[i]? = some c → (U.isUpper c = true ∨ U.isTitle c = true → prevCased U s i = false) ∧
      (U.isLower c = true → prevCased U s i = true)

end Spec
