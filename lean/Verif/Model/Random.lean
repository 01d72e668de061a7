import Verif.Model.Float
import Verif.Model.Calendar
/-!
# Model: random numbers

The Rust generator is a 128-bit linear congruential generator with an output function.  Everything
above it only uses `next_u64`, so it is modelled over an arbitrary state type `σ` with
`next : σ → BitVec 64 × σ`.  The distributions of the crate `rand_distr` are not modelled.
-/

namespace Rumpy

/-- src/random/pcg64.rs:10-13. -/
structure Pcg where
  state : BitVec 128
  inc : BitVec 128
deriving DecidableEq

/-- src/random/pcg64.rs:16. -/
def pcgMult : BitVec 128 := 0xda942042e4dd58b5#128

/-- src/random/pcg64.rs:30-35 (`step`). -/
def Pcg.step (g : Pcg) : Pcg := { g with state := g.state * pcgMult + g.inc }

/-- src/random/pcg64.rs:40-50 (`output`). -/
def pcgOutput (s : BitVec 128) : BitVec 64 :=
  let hi := (s >>> 64).setWidth 64
  let lo := s.setWidth 64 ||| 1#64
  let hi := hi ^^^ (hi >>> 32)
  let hi := hi * 0xda942042e4dd58b5#64
  let hi := hi ^^^ (hi >>> 48)
  hi * lo

/-- src/random/pcg64.rs:53-58 (`next_u64`). -/
def Pcg.next (g : Pcg) : BitVec 64 × Pcg := (pcgOutput g.state, g.step)

/-- The stream of the next `n` numbers and the generator after them. -/
def drawMany {σ : Type} (next : σ → BitVec 64 × σ) : Nat → σ → List (BitVec 64) × σ
  | 0, g => ([], g)
  | n + 1, g => let r := drawMany next n (next g).2; ((next g).1 :: r.1, r.2)

/-- src/random/generator.rs:81-84 (`next_f64`): the result is this number times `2^-53`.  The number is
below `2^53` and the factor is a power of two, so the float product is exact. -/
def uniformNum (u : BitVec 64) : Nat := (u >>> 11).toNat

section bounded
variable {σ : Type} (next : σ → BitVec 64 × σ)

/-- The loop `while l < t` of `bounded_uint64` (src/random/generator.rs:113-130); `m` is the last
128-bit product, `l` its lower half.  With fuel for the redraws. -/
def lemireLoop (range t : Nat) : Nat → Nat → σ → Option (Nat × σ)
  | fuel, m, g =>
    if m % 2 ^ 64 < t then
      match fuel with
      | 0 => none
      | fuel + 1 => lemireLoop range t fuel ((next g).1.toNat * range) (next g).2
    else some (m, g)

/-- src/random/generator.rs:113-130 (`bounded_uint64`). -/
def boundedUint64 (fuel range : Nat) (g : σ) : Option (Nat × σ) :=
  if range = 0 then some (0, g)
  else
    let x := (next g).1
    let g := (next g).2
    let m := x.toNat * range
    if m % 2 ^ 64 < range then
      let t := (2 ^ 64 - range) % range
      (lemireLoop next range t fuel m g).map fun r => (r.1 / 2 ^ 64, r.2)
    else some (m / 2 ^ 64, g)

/-- One value of `integers(low, high)` (src/random/generator.rs:98-110): the difference as `u64`, the
drawn offset added with wrap-around, carried as `f64` and stored as int64.  There is no check that
`low < high` (also not in src/python/random.rs:78-106). -/
def integersOne (fuel : Nat) (low high : Int) (g : σ) : Option (Int × σ) :=
  (boundedUint64 next fuel ((wrap64 (high - low)) % 2 ^ 64).toNat g).map fun r => (viaF64 (wrap64 (low + r.1)), r.2)

end bounded

/-! ### Shuffling -/

/-- `slice::swap(i, j)`; `none` is the out-of-bounds panic. -/
def swapElems {α : Type} (l : List α) (i j : Nat) : Option (List α) :=
  match l[i]?, l[j]? with
  | some a, some b => some ((l.set i b).set j a)
  | _, _ => none

/-- The Fisher–Yates loop (src/random/generator.rs:193-196, 204-207; src/python/random.rs:270-273), from
`i` down to 1. -/
def shuffleLoop {σ α : Type} (next : σ → BitVec 64 × σ) (fuel : Nat) : Nat → List α → σ → Option (List α × σ)
  | 0, l, g => some (l, g)
  | i + 1, l, g =>
    (boundedUint64 next fuel (i + 1 + 1) g).bind fun r =>
      (swapElems l (i + 1) r.1).bind fun l' => shuffleLoop next fuel i l' r.2

/-- `shuffle_data` (src/random/generator.rs:202-208). -/
def shuffleData {σ α : Type} (next : σ → BitVec 64 × σ) (fuel : Nat) (l : List α) (g : σ) : Option (List α × σ) :=
  shuffleLoop next fuel (l.length - 1) l g

/-- `permutation(n)` for an integer (src/random/generator.rs:190-198), elements as numbers. -/
def permutationOf {σ : Type} (next : σ → BitVec 64 × σ) (fuel n : Nat) (g : σ) : Option (List Nat × σ) :=
  shuffleData next fuel (List.range n) g

/-- Swapping two rows of a flat array (src/python/random.rs:280-282). -/
def swapRows {α : Type} (row i j : Nat) (l : List α) : Option (List α) :=
  (List.range row).foldlM (fun l k => swapElems l (i * row + k) (j * row + k)) l

/-- The loop over rows (src/python/random.rs:277-283). -/
def shuffleRows {σ α : Type} (next : σ → BitVec 64 × σ) (fuel row : Nat) : Nat → List α → σ → Option (List α × σ)
  | 0, l, g => some (l, g)
  | i + 1, l, g =>
    (boundedUint64 next fuel (i + 1 + 1) g).bind fun r =>
      (swapRows row (i + 1) r.1 l).bind fun l' => shuffleRows next fuel row i l' r.2

/-- Python's `shuffle` (src/python/random.rs:251-287).  `buf` is the whole buffer as 8-byte words, `off` the word
at which the array starts.  Whatever the strides are, the code takes `size` consecutive words from there.
`none` is a panic (a 0-dimensional array, or words past the end of the buffer) or running out of fuel. -/
def pyShuffle {σ α : Type} (next : σ → BitVec 64 × σ) (fuel : Nat) (buf : List α) (off : Nat) (shape : List Nat) (g : σ) :
    Option (List α × σ) :=
  match shape with
  | [] => none
  | n :: rest =>
    if n ≤ 1 then some (buf, g)
    else
      let size := n * rest.prod
      let data := (buf.drop off).take size
      let r := if rest = [] then shuffleLoop next fuel (n - 1) data g
        else shuffleRows next fuel rest.prod (n - 1) data g
      r.map fun p => (buf.take off ++ p.1 ++ buf.drop (off + size), p.2)

/-- `Vec::swap_remove(j)`: the removed element and what is left; `none` is the panic. -/
def swapRemove {α : Type} (l : List α) (j : Nat) : Option (α × List α) :=
  match l[j]?, l.getLast? with
  | some a, some z => some (a, (l.set j z).dropLast)
  | _, _ => none

/-- `choice` without replacement (src/python/random.rs:918-923): the indices drawn and those left; `n` is the
number `n - i` of the code. -/
def choiceLoop {σ : Type} (next : σ → BitVec 64 × σ) (fuel : Nat) :
    Nat → Nat → List Nat → σ → Option (List Nat × List Nat × σ)
  | 0, _, avail, g => some ([], avail, g)
  | k + 1, n, avail, g =>
    (boundedUint64 next fuel n g).bind fun r =>
      (swapRemove avail r.1).bind fun p =>
        (choiceLoop next fuel k (n - 1) p.2 r.2).map fun q => (p.1 :: q.1, q.2.1, q.2.2)

/-- `choice(n, k, replace=False)` on the indices `0 .. n-1` (src/python/random.rs:893-923); `none` stands for
the two errors and for running out of fuel. -/
def choiceNoReplace {σ : Type} (next : σ → BitVec 64 × σ) (fuel n k : Nat) (g : σ) : Option (List Nat × σ) :=
  if n = 0 then none
  else if k > n then none
  else (choiceLoop next fuel k n (List.range n) g).map fun q => (q.1, q.2.2)

end Rumpy
