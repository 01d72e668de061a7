import Verif.Spec.InsertArg
import Verif.Model.Put
import Verif.Model.Arith
/-!
# Model: `insert` with values of every kind (src/python/shape.rs)
-/

namespace Rumpy
open Spec

/-- The values of `insert`, src/python/shape.rs:640-652, with their dtype, for an array of dtype `d`.  An array of one element is
taken for a number first (`__float__`, src/python/pyarray/dunder_ops.rs:117-124).  Numbers and lists get the dtype `d`
(`full`, `from_vec`: src/array/constructors.rs:29-44, 176-192). -/
def insertValues (d : DType) : InsertArg → Option (DType × Held Elem)
  | .number x => (numF64 x).map fun q => (d, fullOne d q)
  | .list l => (l.mapM numF64).map fun qs => (d, Held.of ⟨[qs.length], qs.map (writeF64 d)⟩ (DType.itemsize d) (zeroElem d))
  | .array e h =>
    if sizeOf h.view.shape = 1 then some (d, fullOne d (readOrZero (h.nd.get (List.replicate h.view.shape.length 0))))
    else some (e, h)
  | .other => none

/-- `insert`, src/python/shape.rs:638-659, of an array of dtype `d`.  Values of another dtype are joined by their bytes, which is C12:
`mixed` stands for that.  `none` is an exception. -/
def insertFn (mixed : DType → Held Elem → Option (Arr Elem)) (eight : Bool) (d : DType) (a : Held Elem) (index : Int) (vals : InsertArg)
    (axis : Option Int) : Option (Arr Elem) :=
  (insertValues d vals).bind fun p => if p.1 = d then insertArr eight a index p.2 axis (zeroElem d) else mixed p.1 p.2

end Rumpy
