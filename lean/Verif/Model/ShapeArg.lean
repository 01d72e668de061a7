import Verif.Spec.ShapeArg
import Verif.Model.Args
import Verif.Model.Stack
/-!
# Model: shapes as arguments (src/python/pyarray/mod.rs, src/python/shape.rs)

`extract` of PyO3: an integer fits `usize` or `isize` or is refused.  `none`: an exception.
-/

namespace Rumpy
open Spec

/-- `parse_shape`, src/python/pyarray/mod.rs:32-45, for `zeros`, `ones`, `full`, `empty` and others. -/
def parseShapeArg (a : PyArg) : Option (List Nat) :=
  match extractUsize a with
  | some n => some [n]
  | none => match a with
    | .tuple l => l.mapM extractUsize
    | .list l => l.mapM extractUsize
    | _ => none

/-- The argument of the function `reshape`, src/python/shape.rs:40-50, and a single argument of the method,
src/python/pyarray/mod.rs:57-69. -/
def parseNewShape (a : PyArg) : Option (List Int) :=
  match argI64 a with
  | some n => some [n]
  | none => match a with
    | .tuple l => l.mapM argI64
    | .list l => l.mapM argI64
    | _ => none

/-- `parse_reshape_args_isize`, src/python/pyarray/mod.rs:49-73. -/
def parseReshapeArgs : List PyArg → Option (List Int)
  | [] => none
  | [a] => parseNewShape a
  | args => args.mapM argI64

/-- The method `reshape` with its arguments, src/python/pyarray/mod.rs:318-326. -/
def reshapeMethod (v : View) (args : List PyArg) : Option View := (parseReshapeArgs args).bind v.pyReshape

/-- The function `reshape` with its argument, src/python/shape.rs:38-81. -/
def reshapeFunction (checked : Bool) (v : View) (a : PyArg) : Outcome View :=
  match parseNewShape a with
  | none => .error
  | some dims => reshapeFn checked v dims

end Rumpy
