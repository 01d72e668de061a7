import Verif.Spec.Axis
import Verif.Model.Search

/-!
# Model: how functions read their `axis` argument

Integers that do not fit the Rust type are refused by PyO3 (OverflowError), and so is None where the type is not an `Option`
(TypeError).  Casts to `usize` are modulo 2^64.  Only the axis is modelled here; `repeat` is called with a positive number of
repetitions, `gradient` without coordinates on an array it accepts, `partition` with an admissible `kth`.
-/

namespace Rumpy

open Spec

/-- `if axis < 0 { (ndim as isize + axis) as usize } else { axis as usize }`: `resolve_axis`, src/python/reductions.rs:22-28 and
src/python/pyarray/mod.rs:991-997, and written out at src/python/misc.rs:29-33, src/python/functional.rs:39-43,
src/python/shape.rs:322-326, src/python/numerical.rs:67-73, src/python/indexing.rs:694-700, 721-727,
src/array/manipulation.rs:943, 1101, 1127, 1171, 1336 and src/ops/numerical.rs:243. -/
def castAxis (n : Nat) (a : Int) : Nat := ((if a < 0 then (n : Int) + a else a) % 2 ^ 64).toNat

/-- An argument of type `isize` or `Option<isize>`: `none` is the answer to None and `bad` the one to an axis out of range. -/
def signedAxis (none bad : Outcome AxisUse) (n : Nat) : Option Int → Outcome AxisUse
  | .none => none
  | some a =>
    if -2 ^ 63 ≤ a ∧ a < 2 ^ 63 then
      if castAxis n a < n then .ok (.along (castAxis n a)) else bad
    else .error

/-- An argument of type `usize` or `Option<usize>`. -/
def unsignedAxis (none : Outcome AxisUse) (n : Nat) : Option Int → Outcome AxisUse
  | .none => none
  | some a =>
    if 0 ≤ a ∧ a < 2 ^ 64 then
      if a.toNat < n then .ok (.along a.toNat) else .error
    else .error

/-- The argument after the default of the signature; a missing argument without default is a TypeError. -/
def withDefault (dflt : Option (Option Int)) (read : Option Int → Outcome AxisUse) : AxisArg → Outcome AxisUse
  | .omitted =>
    match dflt with
    | some d => read d
    | none => .error
  | .none => read none
  | .int a => read (some a)

/-- What each function does with its axis:
* `check_axis` and an exception: src/python/reductions.rs:378-415 (`nanargmin`, `nanargmax`), 462-479 (`cumsum`, `cumprod`), 484-497
  (`cumulative_sum`, `cumulative_prod`), 528-541 (`average`), 887-904 (`nancumsum`, `nancumprod`);
  src/python/pyarray/methods_reductions.rs:14-300; src/python/functional.rs:45-50 (`apply_along_axis`);
  src/python/misc.rs:133-142 (`unstack`), 1105-1109 (`unwrap`, where an array without axes is returned as it is);
  src/array/views.rs:127-129 (`flip`); src/array/manipulation.rs:944-946 (`repeat`), 18-20 (`concatenate`, called by `append`),
  1128-1130 (`insert`), 1172-1174 (`delete`); src/ops/numerical.rs:105-109 (`gradient`), 239-246 (`trapezoid`);
* `assert!`, a panic: src/ops/array_methods/sorting.rs:141, 207, 273, 300 with src/python/indexing.rs:314-341 and
  src/python/pyarray/mod.rs:482-492, 1003-1010; src/ops/array_methods/cumulative.rs:84 with src/python/reductions.rs:788-790;
* the whole array: src/ops/indexing.rs:1009-1011, 1130-1132 (`packbits`, `unpackbits`);
* a copy: src/array/manipulation.rs:1337-1339 (`roll`);
* `usize` and an exception: src/array/manipulation.rs:284-286, 413-415 (percentiles), 18-20, 117-119, 133-135 (`concatenate`,
  `split`, `array_split`); src/ops/indexing.rs:283-285 (`compress`); src/python/pyarray/mod.rs:449-473 (`cumsum`, `cumprod`),
  522-530 (`repeat`), 751-757 (`ptp`).

The last axis of `sort` as a method is `ndim - 1` (src/python/pyarray/mod.rs:1005): without axes this overflows, and with wrapping
arithmetic the assertion fails. -/
def readAxis (f : AxisFn) (n : Nat) : AxisArg → Outcome AxisUse :=
  match f with
  | .nanargmin | .nanargmax | .average | .cumsum | .cumprod | .nancumsum | .nancumprod | .methodReduce
  | .flip | .repeat | .append | .insert | .delete | .gradient => withDefault (some none) (signedAxis (.ok .all) .error n)
  | .cumulativeSum | .cumulativeProd | .applyAlongAxis => withDefault none (signedAxis .error .error n)
  | .unstack => withDefault (some (some 0)) (signedAxis .error .error n)
  | .unwrap | .trapezoid => withDefault (some (some (-1))) (signedAxis .error (if n = 0 then .ok .nothing else .error) n)
  | .sort | .argsort | .partition | .argpartition => withDefault (some (some (-1))) (signedAxis (.ok .all) .panic n)
  | .methodSort => withDefault (some none) (signedAxis (if n = 0 then .panic else .ok (.along (n - 1))) .panic n)
  | .methodArgsort => withDefault (some none) (signedAxis (.ok .all) .panic n)
  | .diff => withDefault (some (some (-1))) (signedAxis .error .panic n)
  | .packbits | .unpackbits => withDefault (some none) (signedAxis (.ok .all) (.ok .all) n)
  | .roll => withDefault (some none) (signedAxis (.ok .all) (.ok .nothing) n)
  | .percentile | .compress | .methodCum | .methodPtp | .methodRepeat => withDefault (some none) (unsignedAxis (.ok .all) n)
  | .concatenate | .split | .arraySplit => withDefault (some (some 0)) (unsignedAxis .error n)

/-- The position of the new axis in `expand_dims`, src/python/shape.rs:231-247 with src/array/views.rs:190-192. -/
def expandAxis (n : Nat) (a : Int) : Outcome Nat :=
  if -2 ^ 63 ≤ a ∧ a < 2 ^ 63 then
    let k := ((if a < 0 then (n : Int) + a + 1 else a) % 2 ^ 64).toNat
    if n < k then .error else .ok k
  else .error

/-- The position of the new axis in `stack`, src/python/shape.rs:386 with src/array/manipulation.rs:90-92. -/
def stackAxis (n : Nat) (a : Int) : Outcome Nat :=
  if 0 ≤ a ∧ a < 2 ^ 64 then
    if n < a.toNat then .error else .ok a.toNat
  else .error

/-- The two axes of `rot90`, src/python/shape.rs:723-739. -/
def rot90Axes (n : Nat) (a b : Int) : Outcome (Nat × Nat) :=
  if (-2 ^ 63 ≤ a ∧ a < 2 ^ 63) ∧ (-2 ^ 63 ≤ b ∧ b < 2 ^ 63) then
    if n < 2 then .error
    else if n ≤ castAxis n a ∨ n ≤ castAxis n b then .error
    else if castAxis n a = castAxis n b then .error
    else .ok (castAxis n a, castAxis n b)
  else .error

end Rumpy
