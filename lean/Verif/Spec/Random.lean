import Mathlib.Data.BitVec
import Mathlib.SetTheory.Cardinal.Finite
/-!
# Specification: drawing from a stream of 64-bit numbers
-/

namespace Spec

/-- Draw numbers until `pick` accepts one; at most `n` draws. -/
def firstAccepted {σ β : Type} (pick : BitVec 64 → Option β) (next : σ → BitVec 64 × σ) :
    Nat → σ → Option (β × σ)
  | 0, _ => none
  | n + 1, g =>
    match pick (next g).1 with
    | some v => some (v, (next g).2)
    | none => firstAccepted pick next n (next g).2

/-- A rule that turns one 64-bit number into a value below `range` or asks for another one, and that gives
every value for equally many numbers. -/
def Unbiased (pick : BitVec 64 → Option Nat) (range : Nat) : Prop :=
  (∀ x v, pick x = some v → v < range) ∧
  ∀ v, v < range → Nat.card {x : BitVec 64 // pick x = some v} = 2 ^ 64 / range

/-- Two positions of a list exchanged, the others kept. -/
def Exchanged {α : Type} (l l' : List α) (i j : Nat) : Prop :=
  l'.length = l.length ∧ l'[i]? = l[j]? ∧ l'[j]? = l[i]? ∧ ∀ p, p ≠ i → p ≠ j → l'[p]? = l[p]?

/-- Fisher–Yates with given choices: position `i` is exchanged with the first choice, which is at most `i`,
then `i-1` with the next, down to position 1. -/
inductive FisherYates {α : Type} : Nat → List Nat → List α → List α → Prop
  | done (l : List α) : FisherYates 0 [] l l
  | step (i j : Nat) (js : List Nat) (l m l' : List α) : j ≤ i + 1 → Exchanged l m (i + 1) j →
      FisherYates i js m l' → FisherYates (i + 1) (j :: js) l l'

end Spec
