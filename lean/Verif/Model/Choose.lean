import Verif.Model.Args
import Verif.Model.Arith
import Verif.Model.Bitwise
/-!
# Model: `where` and `choose` with operands of different dtypes (src/ops/mod.rs, src/ops/indexing.rs, src/python/indexing.rs)
-/

namespace Rumpy
open Spec

/-- `is_truthy`, src/array/dtype/macros.rs:178-180, 360-362, 562-564, bool.rs:105-107, float16.rs:170-172, complex128.rs:401-404,
complex64.rs:398-401, for numbers. -/
def isTruthy : Elem → Bool
  | .bool b => b
  | .int n => n != 0
  | .flt x => !fltEq x (.num 0)
  | .cpx u v => !fltEq u (.num 0) || !fltEq v (.num 0)
  | .text s => s != []

/-- One element in the last loop of `where_select`, src/ops/mod.rs:386-395. -/
def whereElem (r : DType) (c x y : Elem) : Elem :=
  if isTruthy c then writeF64 r ((readF64 x).getD (.num 0)) else writeF64 r ((readF64 y).getD (.num 0))

/-- One element where `x`, `y` and the result have one dtype, src/ops/mod.rs:366-377. -/
def whereCopy (c x y : Elem) : Elem := if isTruthy c then x else y

/-- `where_select` after the kernel dispatch has declined, src/ops/mod.rs:323-329, 336-401: `a` and `b` are different, or equal and
a dtype that the dispatch does not list (src/ops/dispatch.rs:1643-1658), such as `int8`. -/
def whereFallback (a b : DType) (c x y : Held Elem) : Option (DType × Arr Elem) := do
  let cx ← broadcastShapes c.view.shape x.view.shape
  let out ← broadcastShapes cx y.view.shape
  let vc ← c.view.broadcastTo out
  let vx ← x.view.broadcastTo out
  let vy ← y.view.broadcastTo out
  let blank := List.replicate (sizeOf out) (zeroElem (promote a b))
  if sizeOf out = 0 then some (promote a b, ⟨out, blank⟩)
  else if a = b ∧ a = promote a b then
    some (promote a b, ⟨out, writes ((odometerAll out).zipIdx.map fun io =>
      (io.2, whereCopy (c.mem (vc.addr io.1)) (x.mem (vx.addr io.1)) (y.mem (vy.addr io.1)))) blank⟩)
  else
    some (promote a b, ⟨out, writes ((odometerAll out).zipIdx.map fun io =>
      (io.2, whereElem (promote a b) (c.mem (vc.addr io.1)) (x.mem (vx.addr io.1)) (y.mem (vy.addr io.1)))) blank⟩)

/-- `where` of the module with an array `x` of a dtype other than `float64` and a Python number, src/python/indexing.rs:215-245. -/
def whereScalar (a : DType) (c x : Held Elem) (s : PyScalar) : Option (DType × Arr Elem) :=
  (pyF64 s).bind fun q => whereFallback a .f64 c x (fullOne .f64 q)

/-- `copy_element` of a dtype with `n` bytes, src/array/dtype/macros.rs:41-43, 255-257, bool.rs:37-39, complex128.rs:94-97 and so on;
`none`: not all of them are in the buffer. -/
def elementBytes (n : Nat) (buf : List (BitVec 8)) (p : Int) : Option (List (BitVec 8)) :=
  if 0 ≤ p ∧ p + n ≤ buf.length then some (bytesAt buf p n) else none

/-- A choice as `choose` reads it: elements of `n` bytes, whatever its dtype. -/
def choiceAs (n : Nat) (c : RawArr) : Nd (Option (List (BitVec 8))) := ⟨c.view.shape, fun i => elementBytes n c.buf (c.view.addr i)⟩

/-- `choose`, src/ops/indexing.rs:590-657: result dtype and element bytes are those of the first choice (597, 615, 645). -/
def chooseRaw (I : Nd Elem) (choices : List RawArr) : Option (DType × Arr (Option (List (BitVec 8)))) :=
  match choices with
  | [] => none
  | c :: cs => (choose (some (List.replicate (DType.itemsize c.dtype) 0#8)) ⟨I.shape, fun i => readIndex (I.get i)⟩
      ((c :: cs).map (choiceAs (DType.itemsize c.dtype)))).map fun r => (c.dtype, r)

end Rumpy
