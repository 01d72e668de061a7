import Verif.Model.Select
/-!
# Model: element-wise loops (src/ops/dispatch.rs, src/ops/loops, src/ops/ufunc.rs)

The operands are views over typed memories (`mem p` is the element at byte address `p`); the
result is the freshly allocated array.  The element function is arbitrary.
-/

namespace Rumpy
open Spec

/-- A simple loop `for i in 0..n { out[base + i] = val(i) }`, src/ops/loops/contiguous.rs:14-69 and
src/ops/loops/strided.rs:12-48, 122-160. -/
def simpleStores (base n : Nat) (val : Nat → γ) : List (Nat × γ) :=
  (List.range n).map fun i => (base + i, val i)

/-- The n-d case: one inner loop per outer index, src/ops/dispatch.rs:387-412, 1005-1024,
1183-1204, 2196-2215. -/
def rowStores (outer : List Nat) (inner : Nat) (val : List Nat → Nat → γ) : List (Nat × γ) :=
  (odometerAll outer).zipIdx.flatMap fun oi => simpleStores (oi.2 * inner) inner (val oi.1)

/-- Stride of the one-dimensional loop, src/ops/dispatch.rs:375-376, 994, 1172-1173, 2186. -/
def stride1 (ndim : Nat) (v : View) : Int := if ndim = 0 then 0 else v.strides.getD 0 0

/-- `dispatch_unary_typed`, src/ops/dispatch.rs:970-1026, and `dispatch_predicate_typed`,
2166-2220. -/
def mapUnary (f : α → γ) (mem : Int → α) (v : View) (zero : γ) : Arr γ :=
  let size := sizeOf v.shape
  let blank := List.replicate size zero
  if size = 0 then ⟨v.shape, blank⟩
  else if v.cFlag then
    ⟨v.shape, writes (simpleStores 0 size fun i => f (mem (v.offset + i * v.item))) blank⟩
  else
    let ndim := v.shape.length
    if ndim ≤ 1 then
      ⟨v.shape, writes (simpleStores 0 size fun i => f (mem (v.offset + stride1 ndim v * i))) blank⟩
    else
      let inner := v.shape.getD (ndim - 1) 0
      let st := v.strides.getD (ndim - 1) 0
      ⟨v.shape, writes (rowStores (v.shape.take (ndim - 1)) inner fun oi j =>
        f (mem (v.offset + byteOffset oi v.strides + st * j))) blank⟩

/-- `dispatch_binary_typed`, src/ops/dispatch.rs:345-419, and `dispatch_compare_typed`, 1133-1207:
`a` and `b` have been broadcast to `out`. -/
def mapBinary (f : α → β → γ) (memA : Int → α) (memB : Int → β) (a b : View) (out : List Nat) (zero : γ) :
    Arr γ :=
  let size := sizeOf out
  let blank := List.replicate size zero
  if size = 0 then ⟨out, blank⟩
  else if a.cFlag && a.shape == out && (b.cFlag && b.shape == out) then
    ⟨out, writes (simpleStores 0 size fun i =>
      f (memA (a.offset + i * a.item)) (memB (b.offset + i * b.item))) blank⟩
  else
    let ndim := out.length
    if ndim ≤ 1 then
      ⟨out, writes (simpleStores 0 size fun i =>
        f (memA (a.offset + stride1 ndim a * i)) (memB (b.offset + stride1 ndim b * i))) blank⟩
    else
      let inner := out.getD (ndim - 1) 0
      let sa := a.strides.getD (ndim - 1) 0
      let sb := b.strides.getD (ndim - 1) 0
      ⟨out, writes (rowStores (out.take (ndim - 1)) inner fun oi j =>
        f (memA (a.offset + byteOffset oi a.strides + sa * j))
          (memB (b.offset + byteOffset oi b.strides + sb * j))) blank⟩

/-- The trait fallback of `map_binary_op_inplace` (src/ops/ufunc.rs:303-330, 341-449) and of
`map_compare_op` (513-521): visit every index of the result.  Also `dispatch_bitwise_bool_typed`'s
strided loop, src/ops/dispatch.rs:1377-1386. -/
def mapBinaryFallback (f : α → β → γ) (memA : Int → α) (memB : Int → β) (a b : View) (out : List Nat)
    (zero : γ) : Arr γ :=
  let size := sizeOf out
  let blank := List.replicate size zero
  if size = 0 then ⟨out, blank⟩
  else ⟨out, writes ((odometerAll out).zipIdx.map fun io =>
    (io.2, f (memA (a.addr io.1)) (memB (b.addr io.1)))) blank⟩

/-- `map_binary_op` with broadcasting, src/ops/ufunc.rs:165-168, 209-211: `none` is a shape mismatch.
`typed` says whether the kernel dispatch accepts the dtypes. -/
def binaryOp (typed : Bool) (f : α → β → γ) (memA : Int → α) (memB : Int → β) (a b : View) (zero : γ) :
    Option (Arr γ) := do
  let out ← broadcastShapes a.shape b.shape
  let a' ← a.broadcastTo out
  let b' ← b.broadcastTo out
  some (if typed then mapBinary f memA memB a' b' out zero
    else mapBinaryFallback f memA memB a' b' out zero)

/-- The trait fallback of `map_unary_op`, src/ops/ufunc.rs:141-156. -/
def mapUnaryFallback (f : α → γ) (mem : Int → α) (v : View) (zero : γ) : Arr γ :=
  let size := sizeOf v.shape
  let blank := List.replicate size zero
  if size = 0 then ⟨v.shape, blank⟩
  else ⟨v.shape, writes (v.addrs.zipIdx.map fun oi => (oi.2, f (mem oi.1))) blank⟩

/-! ### clip and where -/

/-- The two tests of `dispatch_clip_typed`, src/ops/dispatch.rs:1500-1506. -/
def clipValue [LT α] [DecidableLT α] (lo hi : Option α) (v : α) : α :=
  let v := match lo with
    | some m => if v < m then m else v
    | none => v
  match hi with
  | some m => if m < v then m else v
  | none => v

/-- `dispatch_clip_typed`, src/ops/dispatch.rs:1481-1523. -/
def clip [LT α] [DecidableLT α] (lo hi : Option α) (mem : Int → α) (v : View) (zero : α) : Arr α :=
  let size := sizeOf v.shape
  let blank := List.replicate size zero
  if size = 0 then ⟨v.shape, blank⟩
  else if v.cFlag then
    ⟨v.shape, writes (simpleStores 0 size fun i => clipValue lo hi (mem (v.offset + i * v.item))) blank⟩
  else ⟨v.shape, writes (v.addrs.zipIdx.map fun oi => (oi.2, clipValue lo hi (mem oi.1))) blank⟩

/-- Truth of the condition in the contiguous loop, src/ops/dispatch.rs:1697-1706: any byte. -/
def anyByte (memC : Int → BitVec 8) (item : Nat) (p : Int) : Bool :=
  (List.range item).any fun j => memC (p + j) != 0#8

/-- `dispatch_where_typed`, src/ops/dispatch.rs:1661-1730, with the condition's memory as bytes.  In
the strided loop only the first byte of the condition is tested (1720). -/
def whereTyped (memC : Int → BitVec 8) (memX memY : Int → α) (c x y : View) (out : List Nat) (zero : α) :
    Option (Arr α) :=
  let size := sizeOf out
  let blank := List.replicate size zero
  if size = 0 then some ⟨out, blank⟩
  else do
    let c ← c.broadcastTo out
    let x ← x.broadcastTo out
    let y ← y.broadcastTo out
    if c.cFlag && x.cFlag && y.cFlag then
      some ⟨out, writes (simpleStores 0 size fun i =>
        if (if c.item = 1 then memC (c.offset + i) != 0#8 else anyByte memC c.item (c.offset + i * c.item))
        then memX (x.offset + i * x.item) else memY (y.offset + i * y.item)) blank⟩
    else
      some ⟨out, writes (((c.addrs.zip x.addrs).zip y.addrs).zipIdx.map fun oi =>
        (oi.2, if memC oi.1.1.1 != 0#8 then memX oi.1.1.2 else memY oi.1.2)) blank⟩

/-- `where_select`, src/ops/mod.rs:323-333, for `x` and `y` of one dtype. -/
def whereSelect (memC : Int → BitVec 8) (memX memY : Int → α) (c x y : View) (zero : α) : Option (Arr α) := do
  let cx ← broadcastShapes c.shape x.shape
  let out ← broadcastShapes cx y.shape
  whereTyped memC memX memY c x y out zero

end Rumpy
