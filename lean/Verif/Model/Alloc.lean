import Verif.Spec.Alloc
import Verif.Model.View
import Verif.Model.Search
/-!
# Model: the allocation of arrays in machine arithmetic

Here `usize` and `isize` have 64 bits. `checked` says whether the build checks for overflow: Rust's debug profile panics, the
release profile (Cargo.toml sets no other) wraps around. An array is its view and the length of its buffer in bytes.
A buffer of more than `isize::MAX` bytes is a panic ("capacity overflow"); other failures of the allocator are not modelled.
-/

namespace Rumpy
open Spec

/-- `*` on `usize`. -/
def mulU (checked : Bool) (a b : Nat) : Option Nat :=
  if a * b < 2 ^ 64 then some (a * b) else if checked then none else some (a * b % 2 ^ 64)

/-- `*` on `isize`. -/
def mulI (checked : Bool) (a b : Int) : Option Int :=
  if -2 ^ 63 ≤ a * b ∧ a * b < 2 ^ 63 then some (a * b) else if checked then none else some (Int.bmod (a * b) (2 ^ 64))

/-- `shape.iter().product()`, for example src/array/constructors.rs:13. -/
def productU (checked : Bool) : Nat → List Nat → Option Nat
  | acc, [] => some acc
  | acc, n :: s => (mulU checked acc n).bind fun acc => productU checked acc s

/-- The loop of `compute_c_strides`, src/array/mod.rs:486-497: the strides and the last value of `stride`. -/
def cStridesU (checked : Bool) (item : Nat) : List Nat → Option (List Int × Int)
  | [] => some ([], Int.bmod item (2 ^ 64))
  | n :: s => (cStridesU checked item s).bind fun r =>
    (mulI checked r.2 (Int.bmod n (2 ^ 64))).map fun stride => (r.2 :: r.1, stride)

/-- The buffer of `zeros`, src/array/constructors.rs:13-15 with src/array/buffer.rs:8-12: its length. -/
def bufferU (checked : Bool) (shape : List Nat) (item : Nat) : Option Nat :=
  (productU checked 1 shape).bind fun size => (mulU checked size item).bind fun n => if n < 2 ^ 63 then some n else none

/-- `zeros`, src/array/constructors.rs:12-26. -/
def zerosU (checked : Bool) (shape : List Nat) (item : Nat) : Option (View × Nat) :=
  (bufferU checked shape item).bind fun n => (cStridesU checked item shape).map fun st =>
    ({ offset := 0, shape := shape, strides := st.1, item := item, cFlag := true, fFlag := false }, n)

/-- `parse_shape`, src/python/pyarray/mod.rs:32-46: every length must fit `usize`. -/
def parseShape (dims : List Int) : Option (List Nat) :=
  dims.mapM fun d => if 0 ≤ d ∧ d < 2 ^ 64 then some d.toNat else none

/-- `reshape` of a C-contiguous array, src/array/views.rs:87-104. -/
def reshapeU (checked : Bool) (v : View) (shape : List Nat) : Outcome View :=
  match productU checked 1 v.shape, productU checked 1 shape with
  | some old, some new =>
    if old ≠ new then .error
    else match cStridesU checked v.item shape with
      | some st => .ok (v.viewWith 0 shape st.1)
      | none => .panic
  | _, _ => .panic

/-- The method `resize`, src/python/pyarray/mod.rs:799-834: the new array and the number of elements stored into it from the
beginning of its buffer. `dims` fit `isize`; the cast to `usize` wraps. -/
def resizeU (checked : Bool) (v : View) (dims : List Int) : Option ((View × Nat) × Nat) :=
  let shape := dims.map fun d => (d % 2 ^ 64).toNat
  (productU checked 1 shape).bind fun new =>
    if new = 0 then (zerosU checked shape v.item).map fun a => (a, 0)
    else (productU checked 1 v.shape).bind fun old => (zerosU checked shape v.item).map fun a => (a, min old new)

/-- The method `repeat` without an axis, src/python/pyarray/mod.rs:517-553: the new array and the number of elements stored
into it. `n` is the number of elements. -/
def repeatU (checked : Bool) (n repeats item : Nat) : Option ((View × Nat) × Nat) :=
  (mulU checked n repeats).bind fun m => (zerosU checked [m] item).map fun a => (a, n * repeats)

end Rumpy
