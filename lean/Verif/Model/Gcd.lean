import Verif.Model.Array
import Verif.Model.View
/-!
# Model: gcd and lcm

Element values are integers within the range of a `w`-bit dtype; signed results wrap (release build).
-/

namespace Rumpy

/-- `abs()` of a `w`-bit signed integer (src/ops/special.rs:668-686); the smallest value wraps to itself. -/
def absVal (w : Nat) (x : Int) : Int := Int.bmod x.natAbs (2 ^ w)

/-- The loop of `gcd_scalar_signed` (src/ops/special.rs:503-512) with fuel; `none` is the overflow panic of
`MIN % -1` or running out of fuel. -/
def gcdLoop (w : Nat) : Nat → Int → Int → Option Int
  | fuel, a, b =>
    if b = 0 then some a
    else match fuel with
      | 0 => none
      | fuel + 1 => if a = -2 ^ (w - 1) ∧ b = -1 then none else gcdLoop w fuel b (a.tmod b)

/-- src/ops/special.rs:503-512 (`gcd_scalar_signed`). -/
def gcdSigned (w : Nat) (a b : Int) : Option Int :=
  gcdLoop w ((absVal w b).natAbs + 1) (absVal w a) (absVal w b)

/-- The loop of `gcd_scalar_unsigned` (src/ops/special.rs:514-521) with fuel. -/
def gcdLoopU : Nat → Nat → Nat → Option Nat
  | fuel, a, b =>
    if b = 0 then some a
    else match fuel with
      | 0 => none
      | fuel + 1 => gcdLoopU fuel b (a % b)

/-- src/ops/special.rs:514-521 (`gcd_scalar_unsigned`). -/
def gcdUnsigned (a b : Nat) : Option Nat := gcdLoopU (b + 1) a b

/-- src/ops/special.rs:592-600 (`lcm_scalar_signed`); `none` also for the overflow panic of `MIN / -1`. -/
def lcmSigned (w : Nat) (a b : Int) : Option Int :=
  let a' := absVal w a
  let b' := absVal w b
  if a' = 0 ∨ b' = 0 then some 0
  else
    match gcdSigned w a' b' with
    | none => none
    | some g => if a' = -2 ^ (w - 1) ∧ g = -1 then none else some (Int.bmod (a'.tdiv g * b') (2 ^ w))

/-- src/ops/special.rs:602-608 (`lcm_scalar_unsigned`). -/
def lcmUnsigned (w : Nat) (a b : Nat) : Option Nat :=
  if a = 0 ∨ b = 0 then some 0
  else match gcdUnsigned a b with
    | none => none
    | some g => some (a / g * b % 2 ^ w)

/-- `gcd_typed` and the three functions like it (src/ops/special.rs:457-501, 546-590): `a.size()` elements are
read one after the other from both data pointers with the item size of `a`'s dtype, and stored one after the
other in a new array of `a`'s shape. -/
def pairwiseTyped {α β : Type} (f : α → α → β) (memA memB : Int → α) (a b : View) : Arr β :=
  { shape := a.shape
    data := (List.range (sizeOf a.shape)).map fun i : Nat =>
      f (memA (a.offset + (i : Int) * a.item)) (memB (b.offset + (i : Int) * a.item)) }

end Rumpy
