import Mathlib.Data.List.Forall2
/-!
# Spec: tables in text files

A text table is a list of lines. Which lines count, and how a line is cut into fields, are given from outside.
-/

namespace Spec

/-- The first so many, or all. -/
def upTo : Option Nat → List α → List α
  | none, l => l
  | some k, l => l.take k

/-- The lines that hold data: the first `skip` lines and the last ones are left out, then the ones that are blank or
comments, and at most `max` are used. -/
def dataLines (isData : τ → Bool) (skip footer : Nat) (max : Option Nat) (lines : List τ) : List τ :=
  upTo max (((lines.take (lines.length - footer)).drop skip).filter isData)

/-- Every row has `m` fields, and `vals` are what the fields say. -/
def Reads (cell : τ → Option α) (m : Nat) (rows : List (List τ)) (vals : List (List α)) : Prop :=
  List.Forall₂ (fun row xs => row.length = m ∧ List.Forall₂ (fun t x => cell t = some x) row xs) rows vals

/-- The shape NumPy gives a table with `n` rows and `m` columns: axes of length one are dropped. -/
def tableShape (n m : Nat) : List Nat :=
  if n = 0 then [0] else (if n = 1 then [] else [n]) ++ (if m = 1 then [] else [m])

end Spec
