/-!
# Model: integers that pass through a 64-bit float

Several entry points carry integer values as `f64`.  Only the two conversions are modelled; an
`f64` that holds an integer is represented by that integer.
-/

namespace Rumpy

/-- `x as f64` for a natural number (IEEE 754: round to nearest, ties to even, 53 significant
bits).  Valid below `2^1024`, which every 64-bit integer is. -/
def natToF64 (x : Nat) : Nat :=
  if x < 2 ^ 53 then x
  else
    let s := x.log2 - 52
    let q := x / 2 ^ s
    let r := x % 2 ^ s
    let q := if r > 2 ^ (s - 1) ∨ (r = 2 ^ (s - 1) ∧ q % 2 = 1) then q + 1 else q
    q * 2 ^ s

/-- `x as f64` for an integer. -/
def intToF64 (x : Int) : Int := if 0 ≤ x then (natToF64 x.toNat : Int) else -(natToF64 (-x).toNat : Int)

/-- `f as iN` / `f as uN` of a float that holds an integer: saturating. -/
def f64ToInt (lo hi : Int) (f : Int) : Int := max lo (min hi f)

/-- Reading a 64-bit signed integer through `f64` and storing it again
(`write_f64(read_f64(..))`, src/array/dtype/macros.rs:364-372). -/
def viaF64 (x : Int) : Int := f64ToInt (-2 ^ 63) (2 ^ 63 - 1) (intToF64 x)

end Rumpy
