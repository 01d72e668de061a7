import Verif.Spec.Block
import Verif.Model.Concat
/-!
# Model: `block` (src/python/misc.rs:158-213)

Lists hold arrays of one dtype or further lists; what is neither becomes an array first (src/python/shape.rs:10-30).
-/

namespace Rumpy
open Spec

/-- The array that `concatenate` returns, as a user sees it. -/
def Arr.toNd (zero : α) (r : Arr α) : Nd α := ⟨r.shape, fun idx => (r.at? idx).getD zero⟩

/-- Joining the blocks of one list, src/python/misc.rs:197-208.  `max_ndim - 1` is taken at `max_ndim = 0` only where
`concatenate` refuses every axis. -/
def joinBlocks (zero : α) (depth : Nat) (blocks : List (Nd α)) : Option (Nd α) :=
  match blocks with
  | [b] => some b
  | _ =>
    let maxNdim := (blocks.map fun b => b.shape.length).max?.getD 1
    let axis := if depth < maxNdim then depth else maxNdim - 1
    (concatenate zero blocks axis).map (Arr.toNd zero)

mutual
/-- `process_block`, src/python/misc.rs:170-213; `none`: an exception. -/
def processBlock (zero : α) (depth : Nat) : Nested (Nd α) → Option (Nd α)
  | .leaf a => some a
  | .list l => if l.isEmpty then none else (processBlocks zero (depth + 1) l).bind (joinBlocks zero depth)

/-- The blocks of a list, src/python/misc.rs:185-187. -/
def processBlocks (zero : α) (depth : Nat) : List (Nested (Nd α)) → Option (List (Nd α))
  | [] => some []
  | t :: l => (processBlock zero depth t).bind fun b => (processBlocks zero depth l).map fun r => b :: r
end

/-- `block`, src/python/misc.rs:163-168. -/
def block (zero : α) (t : Nested (Nd α)) : Option (Nd α) := processBlock zero 0 t

end Rumpy
