import Verif.Model.Truth

/-!
# Model: how `compress` reads its condition
-/

namespace Rumpy

open Spec

/-- The condition: Python booleans in a list or in another sequence, an array, or something else, such as a list of integers. -/
inductive CondArg where
  | bools (isList : Bool) (c : List Bool)
  | array (d : DType) (g : Held Elem)
  | other

/-- The condition of the function, src/python/indexing.rs:61-74: `is_truthy` of the elements. -/
def condFn : CondArg → Option (List Bool)
  | .bools _ c => some c
  | .array d g => some (g.view.addrs.map fun o => truthElem d (g.mem o))
  | .other => none

/-- The condition of the method, src/python/pyarray/mod.rs:765-777: the elements as f64. -/
def condMethod : CondArg → Option (List Bool)
  | .bools true c => some c
  | .bools false _ => none
  | .array _ g => some (g.view.addrs.map fun o => floatTruth (g.mem o))
  | .other => none

/-- `compress`, src/ops/indexing.rs:222-227, after the condition is read; src/python/indexing.rs:57-79 and
src/python/pyarray/mod.rs:763-782. -/
def compressOf (zero : α) (cond : Option (List Bool)) (h : Held α) (axis : Option Nat) : Outcome (Arr α) :=
  match cond with
  | none => .error
  | some c =>
    match axis with
    | none => .ok (compressFlat zero h.mem c h.view)
    | some ax =>
      match compressAxis zero c h.nd ax with
      | some r => .ok r
      | none => .error

end Rumpy
