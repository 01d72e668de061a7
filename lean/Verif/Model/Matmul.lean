import Verif.Spec.Matmul
import Verif.Model.Gufunc
import Verif.Model.DType
import Verif.Model.Create
/-!
# Model: matmul, inner, outer, dot, kron, tensordot, matrix_power

Models src/ops/{matmul,inner,outer,dot}.rs and parts of src/ops/linalg.rs.  The third-party
products (faer, BLAS) used for float and complex results are taken to compute the sum of
products like the integer loop; rounding is not modelled.
-/

namespace Rumpy
open Spec

/-! ### matmul -/

/-- The branch taken for a result dtype, src/ops/matmul.rs:123-144. -/
inductive MatPath
  | sum | any | zeros
deriving DecidableEq, Repr

/-- src/ops/matmul.rs:123-144. -/
def matPath : DType → MatPath
  | .f64 | .f32 | .c64 | .c128 | .i64 | .i32 => .sum
  | .bool => .any
  | _ => .zeros

/-- Reading element `(i, k)` of an operand as elements of `esize` bytes, src/ops/matmul.rs:186-191
and 203-204: the byte strides are divided by the element size, rounding towards zero. -/
def matRead (h : Held α) (esize : Nat) (i k : Nat) : α :=
  h.mem (h.view.offset +
    ((i : Int) * (h.view.strides.getD 0 0).tdiv esize + (k : Int) * (h.view.strides.getD 1 0).tdiv esize) * esize)

/-- `matmul_generic`, src/ops/matmul.rs:182-213: the stores. -/
def matmulGeneric [Zero α] [Add α] [Mul α] (esize : Nat) (cores : List (Held α)) (c : View) : List (Int × α) :=
  match cores with
  | [a, b] =>
    let m := a.view.shape.getD 0 0
    let n := a.view.shape.getD 1 0
    let p := b.view.shape.getD 1 0
    (List.range m).flatMap fun i : Nat => (List.range p).map fun j : Nat =>
      (c.offset + ((i : Int) * (c.strides.getD 0 0).tdiv esize + (j : Int) * (c.strides.getD 1 0).tdiv esize) * esize,
        (List.range n).foldl (fun s k => s + matRead a esize i k * matRead b esize k j) 0)
  | _ => []

/-- `matmul_bool`, src/ops/matmul.rs:149-179: the stores of bytes; the early exit is `any`. -/
def matmulBool (cores : List (Held (BitVec 8))) (c : View) : List (Int × BitVec 8) :=
  match cores with
  | [a, b] =>
    let m := a.view.shape.getD 0 0
    let n := a.view.shape.getD 1 0
    let p := b.view.shape.getD 1 0
    (List.range m).flatMap fun i : Nat => (List.range p).map fun j : Nat =>
      (c.offset + ((i : Int) * c.strides.getD 0 0 + (j : Int) * c.strides.getD 1 0),
        if (List.range n).any fun k : Nat =>
          a.mem (a.view.offset + ((i : Int) * a.view.strides.getD 0 0 + (k : Int) * a.view.strides.getD 1 0)) != 0 &&
          b.mem (b.view.offset + ((k : Int) * b.view.strides.getD 0 0 + (j : Int) * b.view.strides.getD 1 0)) != 0
        then 1 else 0)
  | _ => []

/-- `MatmulKernel::call`, src/ops/matmul.rs:34-145, for numbers: the result dtype alone decides the
branch and the element size; a dtype without a branch makes no store. -/
def matmulKernel [Zero α] [Add α] [Mul α] (out : DType) (cores : List (Held α)) (c : View) : List (Int × α) :=
  match matPath out with
  | .sum => matmulGeneric (DType.itemsize out) cores c
  | _ => []

/-- `expand_for_matmul`, src/ops/matmul.rs:380-412. -/
def expandForMatmul (a b : View) : Option (View × View × Bool) :=
  if a.shape.length = 1 ∧ b.shape.length = 1 then do
    let a' ← a.expandDims 0
    let b' ← b.expandDims 1
    some (a', b', true)
  else if a.shape.length = 1 then do
    let a' ← a.expandDims 0
    some (a', b, true)
  else if b.shape.length = 1 then do
    let b' ← b.expandDims 1
    some (a, b', true)
  else some (a, b, false)

/-- `matmul`, src/ops/matmul.rs:357-372, for a kernel. -/
def matmulWith (kernel : List (Held α) → View → List (Int × α)) (a b : Held α) (item : Nat) (zero : α) : Option (Held α) := do
  let (a', b', sq) ← expandForMatmul a.view b.view
  let arr ← gufuncCall matmulSig kernel [⟨a.mem, a'⟩, ⟨b.mem, b'⟩] item zero
  let h := Held.of arr item zero
  some (if sq then ⟨h.mem, h.view.squeeze⟩ else h)

/-- `matmul` of numbers with result dtype `out` (the promoted dtype of the operands,
src/ops/gufunc/mod.rs:46-50).  `a.mem` and `b.mem` read memory as elements of dtype `out`. -/
def matmul [Zero α] [Add α] [Mul α] (out : DType) (a b : Held α) : Option (Held α) :=
  matmulWith (matmulKernel out) a b (DType.itemsize out) 0

/-- `matmul` of bool arrays. -/
def matmulBools (a b : Held (BitVec 8)) : Option (Held (BitVec 8)) := matmulWith matmulBool a b 1 0

/-! ### inner, outer, dot -/

/-- `InnerKernel::call`, src/ops/inner.rs:28-46: one store of an f64 at the start of the result
sub-array.  `put` is the result element the f64 pattern stored there reads as. -/
def innerKernel [Zero α] [Add α] [Mul α] (put : α → β) (cores : List (Held α)) (c : View) : List (Int × β) :=
  match cores with
  | [a, b] =>
    [(c.offset, put ((List.range (a.view.shape.getD 0 0)).foldl
      (fun s k => s + a.mem (a.view.addr [k]) * b.mem (b.view.addr [k])) 0))]
  | _ => []

/-- `inner`, src/ops/inner.rs:69-73. -/
def inner [Zero α] [Add α] [Mul α] (put : α → β) (a b : Held α) (item : Nat) (zero : β) : Option (Arr β) :=
  gufuncCall innerSig (innerKernel put) [a, b] item zero

/-- `OuterKernel::call`, src/ops/outer.rs:28-52: stores of f64 values. -/
def outerKernel [Mul α] (put : α → β) (cores : List (Held α)) (c : View) : List (Int × β) :=
  match cores with
  | [a, b] =>
    (List.range (a.view.shape.getD 0 0)).flatMap fun i : Nat => (List.range (b.view.shape.getD 0 0)).map fun j : Nat =>
      (c.offset + ((i : Int) * c.strides.getD 0 0 + (j : Int) * c.strides.getD 1 0),
        put (a.mem (a.view.addr [i]) * b.mem (b.view.addr [j])))
  | _ => []

/-- `outer`, src/ops/outer.rs:71-79. -/
def outer [Mul α] (put : α → β) (a b : Held α) (item : Nat) (zero : β) : Option (Arr β) := do
  let a' ← a.view.reshape [sizeOf a.view.shape]
  let b' ← b.view.reshape [sizeOf b.view.shape]
  gufuncCall outerSig (outerKernel put) [⟨a.mem, a'⟩, ⟨b.mem, b'⟩] item zero

/-- The byte addresses `outer` writes 8 bytes at, src/ops/outer.rs:45-48, for operands of `m` and `n`
elements and a result of `item`-byte elements. -/
def outerStoreAddrs (m n item : Nat) : List Int :=
  let v := View.fresh [m, n] item
  (List.range m).flatMap fun i : Nat => (List.range n).map fun j : Nat =>
    v.offset + ((i : Int) * v.strides.getD 0 0 + (j : Int) * v.strides.getD 1 0)

/-- `dot` of two 1-D arrays, src/ops/dot.rs:16-27: the sum is stored with the dtype of `a`. -/
def dot1 [Zero α] [Add α] [Mul α] (store : α → β) (a b : Held α) : Option (Arr β) :=
  let n := a.view.shape.getD 0 0
  if n ≠ b.view.shape.getD 0 0 then none
  else some ⟨[], [store ((List.range n).foldl (fun s i => s + a.mem (a.view.addr [i]) * b.mem (b.view.addr [i])) 0)]⟩

/-- `vdot` for real numbers, src/ops/linalg.rs:851-912 (both paths: the fast one reads contiguous
memory in order, which is the order of the iterators). -/
def vdot [Zero α] [Add α] [Mul α] (a b : Held α) : Option α :=
  if sizeOf a.view.shape ≠ sizeOf b.view.shape then none
  else some ((a.view.addrs.zip b.view.addrs).foldl (fun s p => s + a.mem p.1 * b.mem p.2) 0)

/-! ### kron -/

/-- Shape padded with leading ones, src/ops/linalg.rs:922-931. -/
def padShape (s : List Nat) (n : Nat) : List Nat := List.replicate (n - s.length) 1 ++ s

/-- `get_element`, src/array/mod.rs:144-152; `none` is a failed assertion. -/
def Held.at? (h : Held α) (idx : List Nat) : Option α :=
  if InShape h.view.shape idx then some (h.mem (h.view.addr idx)) else none

/-- `kron`, src/ops/linalg.rs:915-1030.  `fast` says that both dtypes are float64.  The outer `Option`
is the refusal, the inner one a panic of `get_element`. -/
def kron [Mul α] (fast : Bool) (a b : Held α) (zero : α) : Option (Option (Arr α)) :=
  if a.view.shape.length < 1 ∨ b.view.shape.length < 1 then none
  else
    let d := max a.view.shape.length b.view.shape.length
    let sa := padShape a.view.shape d
    let sb := padShape b.view.shape d
    let out := List.zipWith (· * ·) sa sb
    let quick := fast && a.view.cFlag && b.view.cFlag
    let init := List.replicate (sizeOf out) zero
    if d = 2 then
      let (m, n) := (sa.getD 0 0, sa.getD 1 0)
      let (p, q) := (sb.getD 0 0, sb.getD 1 0)
      let cols := out.getD 1 0
      let ra := fun i j : Nat => if quick then some (a.mem (a.view.offset + (i * n + j : Nat) * a.view.item)) else a.at? [i, j]
      let rb := fun k l : Nat => if quick then some (b.mem (b.view.offset + (k * q + l : Nat) * b.view.item)) else b.at? [k, l]
      some do
        let ws ← (List.range m).mapM fun i => (List.range n).mapM fun j => do
          let av ← ra i j
          (List.range p).mapM fun k => (List.range q).mapM fun l => do
            let bv ← rb k l
            some ((i * p + k) * cols + (j * q + l), av * bv)
        some ⟨out, writes (ws.flatten.flatten.flatten) init⟩
    else if d = 1 then
      let m := sa.getD 0 0
      let p := sb.getD 0 0
      let ra := fun i : Nat => if quick then some (a.mem (a.view.offset + (i : Nat) * a.view.item)) else a.at? [i]
      let rb := fun k : Nat => if quick then some (b.mem (b.view.offset + (k : Nat) * b.view.item)) else b.at? [k]
      some do
        let ws ← (List.range m).mapM fun i => do
          let av ← ra i
          (List.range p).mapM fun k => do
            let bv ← rb k
            some (i * p + k, av * bv)
        some ⟨out, writes ws.flatten init⟩
    else none

/-! ### matrix_power and multi_dot -/

/-- Loop of `matrix_power`, src/ops/linalg.rs:1123-1132, with fuel for the `while`. -/
def powerLoop (mul : β → β → Option β) : Nat → Nat → β → β → Option β
  | 0, _, result, _ => some result
  | fuel + 1, remaining, result, current =>
    if remaining > 0 then
      (if remaining % 2 = 1 then mul result current else some result).bind fun result =>
        let remaining := remaining / 2
        (if remaining > 0 then mul current current else some current).bind fun current =>
          powerLoop mul fuel remaining result current
    else some result

/-- `matrix_power`, src/ops/linalg.rs:1093-1134, for a float64 matrix.  `inv` is the third-party
inverse. -/
def matrixPower [Zero α] [One α] [Add α] [Mul α] (inv : Held α → Option (Held α)) (a : Held α) (n : Int) : Option (Held α) :=
  if a.view.shape.length ≠ 2 then none
  else
    let size := a.view.shape.getD 0 0
    if a.view.shape.getD 1 0 ≠ size then none
    else if size = 0 then some (Held.of ⟨[0, 0], []⟩ 8 0)
    else if n = 0 then some (Held.of (eye size 1 0) 8 0)
    else do
      let base ← if n < 0 then inv a else some a
      powerLoop (matmul DType.f64) (n.natAbs + 1) n.natAbs (Held.of (eye size 1 0) 8 0) base

/-- `multi_dot`, src/ops/linalg.rs:1139-1154. -/
def multiDot [Zero α] [Add α] [Mul α] (out : DType) : List (Held α) → Option (Held α)
  | [] => none
  | a :: rest => rest.foldlM (fun r x => matmul out r x) a

/-! ### tensordot and cross -/

/-- `tensordot`, src/ops/linalg.rs:1245-1352, for float64 operands.  The inner `Option` is a panic of
`get_element`. -/
def tensordot [Zero α] [Add α] [Mul α] (a b : Held α) (aAxes bAxes : List Nat) : Option (Option (Held α)) :=
  if aAxes.length ≠ bAxes.length then none
  else if aAxes.any (fun x => decide (x ≥ a.view.shape.length)) then none
  else if bAxes.any (fun x => decide (x ≥ b.view.shape.length)) then none
  else if (aAxes.zip bAxes).any (fun p => a.view.shape.getD p.1 0 != b.view.shape.getD p.2 0) then none
  else if a.view.shape.length = 2 ∧ b.view.shape.length = 2 ∧ aAxes = [1] ∧ bAxes = [0] then (matmul DType.f64 a b).map some
  else
    let rest := fun (s : List Nat) (axes : List Nat) => (s.zipIdx.filter fun p => !axes.contains p.2).map (·.1)
    let out := rest a.view.shape aAxes ++ rest b.view.shape bAxes
    let out := if out.isEmpty then [1] else out
    let init := List.replicate (sizeOf out) (0 : α)
    let dotLoop := fun (n : Nat) (ia ib : Nat → List Nat) => (List.range n).foldlM (fun (s : α) i => do
      let x ← a.at? (ia i)
      let y ← b.at? (ib i)
      some (s + x * y)) 0
    if a.view.shape.length > 2 ∨ b.view.shape.length > 2 then none
    else if a.view.shape.length = 1 ∧ b.view.shape.length = 1 then
      some do
        let s ← dotLoop (a.view.shape.getD 0 0) (fun i => [i]) (fun i => [i])
        some (Held.of ⟨out, writes [(0, s)] init⟩ 8 0)
    else if a.view.shape.length = 2 ∧ b.view.shape.length = 1 ∧ aAxes = [1] ∧ bAxes = [0] then
      some do
        let ws ← (List.range (a.view.shape.getD 0 0)).mapM fun i => do
          let s ← dotLoop (a.view.shape.getD 1 0) (fun j => [i, j]) (fun j => [j])
          some (i, s)
        some (Held.of ⟨out, writes ws init⟩ 8 0)
    else if a.view.shape.length = 1 ∧ b.view.shape.length = 2 ∧ aAxes = [0] ∧ bAxes = [0] then
      some do
        let ws ← (List.range (b.view.shape.getD 1 0)).mapM fun j => do
          let s ← dotLoop (a.view.shape.getD 0 0) (fun i => [i]) (fun i => [i, j])
          some (j, s)
        some (Held.of ⟨out, writes ws init⟩ 8 0)
    else none

/-- `cross`, src/ops/linalg.rs:1033-1058. -/
def cross [Sub α] [Mul α] (a b : Held α) (zero : α) : Option (Arr α) :=
  if a.view.shape.length ≠ 1 ∨ b.view.shape.length ≠ 1 then none
  else if a.view.shape.getD 0 0 ≠ 3 ∨ b.view.shape.getD 0 0 ≠ 3 then none
  else
    let ra := fun i : Nat => a.mem (a.view.addr [i])
    let rb := fun i : Nat => b.mem (b.view.addr [i])
    some ⟨[3], writes [(0, ra 1 * rb 2 - ra 2 * rb 1), (1, ra 2 * rb 0 - ra 0 * rb 2), (2, ra 0 * rb 1 - ra 1 * rb 0)]
      (List.replicate 3 zero)⟩

end Rumpy
