import Verif.Spec.Sequence
import Verif.Model.View
import Verif.Model.Search
import Verif.Model.Arith
/-!
# Model: an array in Python's iteration, `in`, `bool`, `len`, `float` and `int`

The class defines `__getitem__`, `__float__` and `__int__` (src/python/pyarray/dunder_item.rs, dunder_ops.rs) but none of `__iter__`,
`__len__`, `__contains__`, `__bool__` and `__index__`; what Python does then enters by its contract: it iterates by asking for the items
0, 1, 2, … until an `IndexError`, `x in a` compares the items in turn, and every object without `__bool__` and `__len__` is true.
-/

namespace Rumpy
open Spec

/-- The `i`-th item an iteration asks for: `__getitem__` with one integer, src/python/pyarray/dunder_item.rs:157-162; `.error` is an
`IndexError`, the end of the iteration; `shape()[0]` panics for an array of no dimensions. -/
def iterItem (v : View) (i : Nat) : Outcome View :=
  match v.shape with
  | [] => .panic
  | _ => match v.getInt i with
    | some w => .ok w
    | none => .panic

/-- The items after at most `k` steps, and whether the iteration has ended; `none`: a panic. -/
def iterate (v : View) : Nat → Nat → Option (List View × Bool)
  | _, 0 => some ([], false)
  | i, k + 1 => match iterItem v i with
    | .error => some ([], true)
    | .panic => none
    | .ok w => (iterate v (i + 1) k).map fun r => (w :: r.1, r.2)

/-- `bool(a)`: the default of Python. -/
def truthOf (_ : View) : Bool := true

/-- `x in a` for a number `x`: the items are compared in turn; `item == x` is an array (src/python/pyarray/dunder_ops.rs:153-155,
`comparison_op_dispatch`, src/python/pyarray/mod.rs:1307-1308), so its truth is that of an array. -/
def containsLoop (v : View) : Nat → Nat → Option Bool
  | _, 0 => none
  | i, k + 1 => match iterItem v i with
    | .error => some false
    | .panic => none
    | .ok w => if truthOf w then some true else containsLoop v (i + 1) k

/-- `float(a)`: `__float__`, src/python/pyarray/dunder_ops.rs:117-124, and `item`, src/python/pyarray/mod.rs:426-433, with `get_element`
(src/array/mod.rs:144-152). -/
def floatOf (h : Held Elem) : Outcome (Flt ℚ) :=
  if sizeOf h.view.shape ≠ 1 then .error
  else .ok ((readF64 (h.mem (h.view.addr (List.replicate h.view.shape.length 0)))).getD (.num 0))

/-- `int(a)`: `__int__`, src/python/pyarray/dunder_ops.rs:126-133: a saturating cast of the float64. -/
def intOf (h : Held Elem) : Outcome Int :=
  match floatOf h with
  | .ok x => .ok (fltToInt (-2 ^ 63) (2 ^ 63 - 1) x)
  | .error => .error
  | .panic => .panic

end Rumpy
