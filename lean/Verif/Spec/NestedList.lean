import Verif.Spec.Nd
import Verif.Spec.Int
import Mathlib.Data.Rat.Defs

/-!
# Specification: arrays and nested Python lists of numbers
-/

namespace Spec

/-- A Python number (finite floats, by their exact value). -/
inductive PyNum where
  | bool (b : Bool)
  | int (i : Int)
  | float (x : Rat)
  | complex (re im : Rat)
deriving DecidableEq

/-- A Python number or a list of such things, nested to any depth. -/
inductive PyData where
  | num (x : PyNum)
  | list (items : List PyData)

/-- The nested list with the given shape and elements: the item at position `i` of the list at
depth `d` belongs to index `i` of axis `d`.  Of the shape `[]`, the number itself. -/
def PyData.shaped : List Nat → (List Nat → PyNum) → PyData
  | [], get => .num (get [])
  | n :: s, get => .list ((List.range n).map fun i => PyData.shaped s fun idx => get (i :: idx))

mutual
/-- The numbers of a nested list, in order. -/
def PyData.leaves : PyData → List PyNum
  | .num x => [x]
  | .list l => PyData.leavesAll l
/-- The numbers of several nested lists, in order. -/
def PyData.leavesAll : List PyData → List PyNum
  | [] => []
  | d :: r => PyData.leaves d ++ PyData.leavesAll r
end

/-- Only the last axis may be empty: in a nested list no axis after an empty one can be seen. -/
def Visible (s : List Nat) : Prop := ∀ n ∈ s.dropLast, n ≠ 0

/-- The dtypes involved: truth values, integers of a width, floats, complex numbers. -/
inductive NumKind where
  | bool
  | int (signed : Bool) (bits : Nat)
  | float
  | complex
deriving DecidableEq

/-- NumPy's dtype for a list: the least one that holds all the numbers in it (integers that fit in
64 bits with sign). -/
def numpyKind (l : List PyNum) : NumKind :=
  if l.any (fun | .complex .. => true | _ => false) then .complex
  else if l.any (fun | .float _ => true | _ => false) ∨ l = [] then .float
  else if l.any (fun | .int _ => true | _ => false) then .int true 64
  else .bool

end Spec
