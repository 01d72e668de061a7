import Verif.Model.Rearrange
import Verif.Spec.Linalg
/-!
# Linear algebra

Models src/ops/linalg.rs and src/ops/solve.rs.  Elements are those the code reads with `get_element`,
in a field: rounding is not modelled.  The factorisations are done by the library faer; each function
takes the library's function as a parameter.
-/

namespace Rumpy
open Spec

/-- `try_as_faer_mat`, src/ops/linalg.rs:10-28, and its fallback `copy_to_faer_mat`,
src/ops/linalg.rs:31-34.  `f64`: the dtype is float64.  The first reads the buffer with row stride
`n`; the second reads element by element. -/
def faerMat (f64 : Bool) (h : Held K) (m n : Nat) : Nat → Nat → K :=
  if f64 && h.view.cFlag && m != 0 && n != 0 then
    fun i j => h.mem (h.view.offset + ((i * n + j : Nat) : Int) * 8)
  else fun i j => h.mem (h.view.addr [i, j])

/-- `faer_to_rumpy`, src/ops/linalg.rs:37-49. -/
def faerToRumpy [Zero K] (m n : Nat) (mat : Nat → Nat → K) : Arr K :=
  ⟨[m, n], writes ((List.range m).flatMap fun i => (List.range n).map fun j => (i * n + j, mat i j))
    (List.replicate (m * n) 0)⟩

/-- `faer_col_to_rumpy`, src/ops/linalg.rs:52-62. -/
def faerColToRumpy [Zero K] (n : Nat) (col : Nat → K) : Arr K :=
  ⟨[n], writes ((List.range n).map fun i => (i, col i)) (List.replicate n 0)⟩

/-- The test for a square matrix at the start of `inv`, `det`, `eigh`, `cholesky`, `slogdet` and
`solve` (e.g. src/ops/linalg.rs:79-85): the size. -/
def squareSize (v : View) : Option Nat :=
  match v.shape with
  | [n, n'] => if n' ≠ n then none else some n
  | _ => none

/-- The sizes of a 2-D array, or `none` (e.g. src/ops/linalg.rs:297-299). -/
def matSize (v : View) : Option (Nat × Nat) :=
  match v.shape with
  | [m, n] => some (m, n)
  | _ => none

/-- `inv`, src/ops/linalg.rs:78-99. -/
def inv [Zero K] (inverse : Nat → (Nat → Nat → K) → Nat → Nat → K) (f64 : Bool) (a : Held K) : Option (Arr K) := do
  let n ← squareSize a.view
  if n = 0 then some ⟨[0, 0], []⟩
  else some (faerToRumpy n n (inverse n (faerMat f64 a n n)))

/-- The sign from the number of row exchanges, src/ops/linalg.rs:132-136 and 444. -/
def swapSign [One K] [Neg K] (count : Nat) : K := if count % 2 = 0 then 1 else -1

/-- `det`, src/ops/linalg.rs:102-139. -/
def det [CommRing K] (lu : Nat → (Nat → Nat → K) → Plu K) (f64 : Bool) (a : Held K) : Option K := do
  let n ← squareSize a.view
  if n = 0 then some 1
  else
    let plu := lu n (faerMat f64 a n n)
    some ((List.range n).foldl (fun d i => d * plu.u i i) 1 * swapSign plu.swaps)

/-- The loop of `slogdet`, src/ops/linalg.rs:447-456.  `none` for the logarithm is negative infinity. -/
def slogdetLoop [Field K] [LinearOrder K] (ln : K → K) (u : Nat → Nat → K) : List Nat → K → K → K × Option K
  | [], sign, logabs => (sign, some logabs)
  | i :: is, sign, logabs =>
    let d := u i i
    if d = 0 then (0, none)
    else slogdetLoop ln u is (if d < 0 then -sign else sign) (logabs + ln |d|)

/-- `slogdet`, src/ops/linalg.rs:424-459. -/
def slogdet [Field K] [LinearOrder K] (ln : K → K) (lu : Nat → (Nat → Nat → K) → Plu K) (f64 : Bool) (a : Held K) :
    Option (K × Option K) := do
  let n ← squareSize a.view
  if n = 0 then some (1, none)
  else
    let plu := lu n (faerMat f64 a n n)
    some (slogdetLoop ln plu.u (List.range n) (swapSign plu.swaps) 0)

/-- `qr`, src/ops/linalg.rs:296-310. -/
def qr [Zero K] (thinQr : Nat → Nat → (Nat → Nat → K) → (Nat → Nat → K) × (Nat → Nat → K)) (f64 : Bool) (a : Held K) :
    Option (Arr K × Arr K) := do
  let mn ← matSize a.view
  let d := thinQr mn.1 mn.2 (faerMat f64 a mn.1 mn.2)
  some (faerToRumpy mn.1 (min mn.1 mn.2) d.1, faerToRumpy (min mn.1 mn.2) mn.2 d.2)

/-- `svd`, src/ops/linalg.rs:315-331. -/
def svd [Zero K] (thinSvd : Nat → Nat → (Nat → Nat → K) → Svd K) (f64 : Bool) (a : Held K) :
    Option (Arr K × Arr K × Arr K) := do
  let mn ← matSize a.view
  let d := thinSvd mn.1 mn.2 (faerMat f64 a mn.1 mn.2)
  let k := d.s.length
  some (faerToRumpy mn.1 k d.u, faerColToRumpy k (fun i => d.s.getD i 0), faerToRumpy k mn.2 fun i j => d.v j i)

/-- `eigh`, src/ops/linalg.rs:336-361. -/
def eigh [Zero K] (selfadjoint : Nat → (Nat → Nat → K) → (Nat → K) × (Nat → Nat → K)) (f64 : Bool) (a : Held K) :
    Option (Arr K × Arr K) := do
  let n ← squareSize a.view
  if n = 0 then some (⟨[0], []⟩, ⟨[0, 0], []⟩)
  else
    let d := selfadjoint n (faerMat f64 a n n)
    some (faerColToRumpy n d.1, faerToRumpy n n d.2)

/-- `eigvalsh`, src/ops/linalg.rs:774-793. -/
def eigvalsh [Zero K] (selfadjoint : Nat → (Nat → Nat → K) → (Nat → K) × (Nat → Nat → K)) (f64 : Bool) (a : Held K) :
    Option (Arr K) := do
  let n ← squareSize a.view
  if n = 0 then some ⟨[0], []⟩
  else some (faerColToRumpy n (selfadjoint n (faerMat f64 a n n)).1)

/-- `cholesky`, src/ops/linalg.rs:366-384.  The library refuses a matrix that is not positive definite. -/
def cholesky [Zero K] (factor : Nat → (Nat → Nat → K) → Option (Nat → Nat → K)) (f64 : Bool) (a : Held K) :
    Option (Arr K) := do
  let n ← squareSize a.view
  if n = 0 then some ⟨[0, 0], []⟩
  else
    let l ← factor n (faerMat f64 a n n)
    some (faerToRumpy n n l)

/-- `eigvals`, src/ops/linalg.rs:740-770.  `C` stands for complex128; the two stores of one element are one
store here. -/
def eigvals [Zero C] (values : Nat → (Nat → Nat → K) → Nat → C) (f64 : Bool) (a : Held K) : Option (Arr C) := do
  let n ← squareSize a.view
  if n = 0 then some ⟨[0], []⟩
  else some (faerColToRumpy n (values n (faerMat f64 a n n)))

/-- `eig`, src/ops/linalg.rs:797-846. -/
def eig [Zero C] (decomp : Nat → (Nat → Nat → K) → (Nat → C) × (Nat → Nat → C)) (f64 : Bool) (a : Held K) :
    Option (Arr C × Arr C) := do
  let n ← squareSize a.view
  if n = 0 then some (⟨[0], []⟩, ⟨[0, 0], []⟩)
  else
    let d := decomp n (faerMat f64 a n n)
    some (faerColToRumpy n d.1, faerToRumpy n n d.2)

/-- The right-hand side of `solve`, src/ops/solve.rs:30-42: a 1-D one becomes a column. -/
def solveRhs (n : Nat) (b : View) : Option (View × Bool) :=
  match b.shape with
  | [k] => if k ≠ n then none else (b.expandDims 1).map fun v => (v, true)
  | [k, _] => if k ≠ n then none else some (b, false)
  | _ => none

/-- The stores of `solve`, src/ops/solve.rs:55-68: byte position and `f64` value.  `item` is the item size of
the first argument's dtype, which is the dtype of the result. -/
def solveStores (item n m : Nat) (x : Nat → Nat → K) : List (Int × K) :=
  let st := cStrides [n, m] item
  (List.range n).flatMap fun (i : Nat) => (List.range m).map fun (j : Nat) =>
    ((i : Int) * st.getD 0 0 + (j : Int) * st.getD 1 0, x i j)

/-- The result of `solve` before the squeeze, for a dtype with items of 8 bytes: the stores go to whole
elements.  `raw` is what the dtype reads back from the bytes of a stored `f64`: the same value for float64,
another one for int64. -/
def solveArr [Zero K] (raw : K → K) (n m : Nat) (x : Nat → Nat → K) : Arr K :=
  ⟨[n, m], writes ((solveStores 8 n m x).map fun s => ((s.1 / 8).toNat, raw s.2)) (List.replicate (n * m) 0)⟩

/-- `solve`, src/ops/solve.rs:19-76, for a dtype with items of 8 bytes. -/
def solve [Zero K] (raw : K → K) (solver : Nat → Nat → (Nat → Nat → K) → (Nat → Nat → K) → Nat → Nat → K)
    (a b : Held K) : Option (Held K) := do
  let n ← squareSize a.view
  let rhs ← solveRhs n b.view
  let m := rhs.1.shape.getD 1 0
  let x := solver n m (fun i j => a.mem (a.view.addr [i, j])) (fun i j => b.mem (rhs.1.addr [i, j]))
  let r := Held.of (solveArr raw n m x) 8 0
  some (if rhs.2 then ⟨r.mem, r.view.squeeze⟩ else r)

/-- `tensorinv`, src/ops/linalg.rs:1160-1187. -/
def tensorinv [Zero K] (inverse : Nat → (Nat → Nat → K) → Nat → Nat → K) (f64 : Bool) (a : Held K) (ind : Option Nat) :
    Option (Held K) :=
  let shape := a.view.shape
  let ind := ind.getD (shape.length / 2)
  if ind = 0 ∨ ind > shape.length then none
  else
    let first := sizeOf (shape.take ind)
    let last := sizeOf (shape.drop ind)
    if first ≠ last then none
    else do
      let v ← a.view.reshape [first, last]
      let i2 ← inv inverse f64 ⟨a.mem, v⟩
      let r := Held.of i2 8 0
      let w ← r.view.reshape (shape.drop ind ++ shape.take ind)
      some ⟨r.mem, w⟩

/-- `tensorsolve` after the axes have been moved, src/ops/linalg.rs:1204-1238. -/
def tensorsolveCore [Zero K] (raw : K → K) (solver : Nat → Nat → (Nat → Nat → K) → (Nat → Nat → K) → Nat → Nat → K)
    (a b : Held K) : Option (Held K) :=
  let sa := a.view.shape
  let sb := b.view.shape
  if sa.length < sb.length then none
  else if sa.take sb.length ≠ sb then none
  else
    let xShape := sa.drop sb.length
    if sizeOf sb ≠ sizeOf xShape then none
    else do
      let va ← a.view.reshape [sizeOf sb, sizeOf xShape]
      let vb ← b.view.reshape [sizeOf sb]
      let x ← solve raw solver ⟨a.mem, va⟩ ⟨b.mem, vb⟩
      let w ← x.view.reshape xShape
      some ⟨x.mem, w⟩

/-- `tensorsolve`, src/ops/linalg.rs:1193-1239. -/
def tensorsolve [Zero K] (raw : K → K) (solver : Nat → Nat → (Nat → Nat → K) → (Nat → Nat → K) → Nat → Nat → K)
    (a b : Held K) (axes : Option (List Nat)) : Option (Held K) :=
  match axes with
  | none => tensorsolveCore raw solver a b
  | some ax => do
    let v ← a.view.transposeAxes (((List.range a.view.shape.length).filter fun i => !ax.contains i) ++ ax)
    tensorsolveCore raw solver ⟨a.mem, v⟩ b

end Rumpy
