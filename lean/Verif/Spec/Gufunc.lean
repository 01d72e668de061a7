import Verif.Spec.View
import Mathlib.Data.List.Forall2
/-!
# Specification: signatures of generalised ufuncs

A signature such as `(m,n),(n,p)->(m,p)` names the core dimensions of every operand and of
every result.  This file says what text denotes which signature, and when operand shapes match
a signature.
-/

namespace Spec

/-- A signature: the names of the core dimensions of each operand and of each result. -/
structure GuSig where
  inputs : List (List (List Char))
  outputs : List (List (List Char))
deriving DecidableEq, Repr

/-- White space (Unicode `White_Space`). -/
def IsSpace (c : Char) : Prop :=
  (9 ≤ c.toNat ∧ c.toNat ≤ 13) ∨ c.toNat = 0x20 ∨ c.toNat = 0x85 ∨ c.toNat = 0xA0 ∨ c.toNat = 0x1680 ∨
  (0x2000 ≤ c.toNat ∧ c.toNat ≤ 0x200A) ∨ c.toNat = 0x2028 ∨ c.toNat = 0x2029 ∨ c.toNat = 0x202F ∨
  c.toNat = 0x205F ∨ c.toNat = 0x3000

instance (c : Char) : Decidable (IsSpace c) := by unfold IsSpace; infer_instance

/-- Blank text. -/
def Blank (s : List Char) : Prop := ∀ c ∈ s, IsSpace c

/-- A dimension name: letters, digits and other characters without a role in the grammar. -/
def IsName (s : List Char) : Prop :=
  s ≠ [] ∧ ∀ c ∈ s, ¬ IsSpace c ∧ c ≠ '(' ∧ c ≠ ')' ∧ c ≠ ',' ∧ c ≠ '>'

/-- Texts joined by commas. -/
def commaJoin : List (List Char) → List Char
  | [] => []
  | [s] => s
  | s :: t :: r => s ++ ',' :: commaJoin (t :: r)

/-- `s` is the text `x` with optional white space around it. -/
def Padded (x s : List Char) : Prop := ∃ l r, Blank l ∧ Blank r ∧ s = l ++ x ++ r

/-- `s` denotes the core dimensions `names`: a parenthesised list of names separated by commas,
white space being allowed around names and parentheses. -/
def DimsText (names : List (List Char)) (s : List Char) : Prop :=
  (∀ n ∈ names, IsName n) ∧
  ∃ body ts, List.Forall₂ Padded names ts ∧ (names = [] → Blank body) ∧ (names ≠ [] → body = commaJoin ts) ∧
    Padded ('(' :: body ++ [')']) s

/-- `s` denotes a list of operands: their texts separated by commas. -/
def OperandsText (ops : List (List (List Char))) (s : List Char) : Prop :=
  ∃ ts, List.Forall₂ DimsText ops ts ∧ (ops = [] → Blank s) ∧ (ops ≠ [] → s = commaJoin ts)

/-- `s` denotes the signature: operands, an arrow, results. -/
def SigText (sig : GuSig) (s : List Char) : Prop :=
  sig.inputs ≠ [] ∧ ∃ a b, OperandsText sig.inputs a ∧ OperandsText sig.outputs b ∧ s = a ++ '-' :: '>' :: b

/-- `r` is the broadcast of all the shapes together, axis by axis from the right: its rank is
the largest rank, and at each axis every shape has either length 1 or the length of `r`, which
is 1 or the length of one of them. -/
def IsBroadcastAll (shapes : List (List Nat)) (r : List Nat) : Prop :=
  r.length = (shapes.map List.length).foldr max 0 ∧
  ∀ k, k < r.length → (∀ s ∈ shapes, dimR s k = 1 ∨ dimR s k = dimR r k) ∧
    (dimR r k = 1 ∨ ∃ s ∈ shapes, dimR s k = dimR r k)

/-- The operand shapes match the signature: with the sizes `σ` of the named dimensions, each
operand has loop dimensions followed by its core dimensions, and the loop dimensions broadcast to
`loop`. -/
def Resolves (sig : GuSig) (shapes : List (List Nat)) (σ : List Char → Nat) (loops : List (List Nat))
    (loop : List Nat) : Prop :=
  loops.length = sig.inputs.length ∧
  shapes = List.zipWith (fun l names => l ++ names.map σ) loops sig.inputs ∧
  IsBroadcastAll loops loop

/-- The core sub-array of an operand at a loop position: the operand is broadcast to the loop
shape followed by its core shape `core`, and the loop coordinates are fixed. -/
def Nd.coreAt (a : Nd α) (loop core l : List Nat) : Nd α :=
  { shape := core, get := fun c => (a.broadcast (loop ++ core)).get (l ++ c) }

/-- The sizes of named dimensions in a result: those bound by an operand, 1 for the others. -/
noncomputable def outputSize (sig : GuSig) (σ : List Char → Nat) (d : List Char) : Nat :=
  open Classical in if ∃ names ∈ sig.inputs, d ∈ names then σ d else 1

end Spec
