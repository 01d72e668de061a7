import Verif.Model.Alias
import Verif.Model.Cast
import Verif.Model.Select
/-!
# Model: `copyto`, `ascontiguousarray`, `asfortranarray`, `require` (src/python/creation.rs)

For `copyto` all arrays lie in one memory, a function from byte address to the element stored there: addresses
are those of the process, so arrays with different buffers have no address in common.
-/

namespace Rumpy
open Spec

/-- `write_f64_at_byte_offset` (the functions cited at `writeF64`): strings store nothing. -/
def putF64 (b : DType) (x : Flt ℚ) : Option Elem :=
  match b with
  | .str _ => none
  | .bytes _ => none
  | b => some (writeF64 b x)

/-- `read_f64(..).unwrap_or(0.0)`, src/python/creation.rs:1097, 1099, 1116. -/
def readOrZero (x : Elem) : Flt ℚ := (readF64 x).getD (.num 0)

/-- One round of the loop without a mask, src/python/creation.rs:1116-1117. -/
def copyStep (b : DType) (mem : Int → Elem) (dst src : Int) : Int → Elem :=
  match putF64 b (readOrZero (mem src)) with
  | some y => fun p => if p = dst then y else mem p
  | none => mem

/-- One round of the loop with a mask, src/python/creation.rs:1097-1101. -/
def maskedStep (b : DType) (mem : Int → Elem) (dst src mask : Int) : Int → Elem :=
  if !fltEq (readOrZero (mem mask)) (.num 0) then copyStep b mem dst src else mem

/-- What `copyto` does: it returns, reports an error, or its behaviour is undefined. -/
inductive CopyRun where
  | done (mem : Int → Elem)
  | error
  | undefined

/-- `std::ptr::copy_nonoverlapping` of `n` elements, which is undefined for overlapping ranges,
src/python/creation.rs:1107-1108. -/
def copyBlock (mem : Int → Elem) (dst src : Int) (item n : Nat) : CopyRun :=
  if dst < src + ((n * item : Nat) : Int) ∧ src < dst + ((n * item : Nat) : Int) then .undefined
  else .done ((List.range n).foldl (fun m k => fun p =>
    if p = dst + ((k * item : Nat) : Int) then mem (src + ((k * item : Nat) : Int)) else m p) mem)

/-- The shape test and `broadcast_to`, src/python/creation.rs:1051-1060, 1078-1087. -/
def fitTo (v : View) (shape : List Nat) : Option View :=
  if v.shape ≠ shape then v.broadcastTo shape else some v

/-- `copyto`, src/python/creation.rs:1040-1123, for a source of dtype `a` and a destination of dtype `b`.
`casting` is never looked at.  `same` says that the destination is the same Python object as the source or the
mask: the bindings then report an error, because the object is already borrowed. -/
def copyto (a b : DType) (same : Bool) (mem : Int → Elem) (dst src : View) (mask : Option View) : CopyRun :=
  if same then .error
  else match fitTo src dst.shape with
  | none => .error
  | some s =>
    if sizeOf dst.shape = 0 then .done mem
    else match mask with
    | some w =>
      match fitTo w dst.shape with
      | none => .error
      | some w => .done (((dst.addrs.zip s.addrs).zip w.addrs).foldl (fun m p => maskedStep b m p.1.1 p.1.2 p.2) mem)
    | none =>
      if a = b ∧ dst.cFlag = true ∧ s.cFlag = true then copyBlock mem dst.offset s.offset dst.item (sizeOf dst.shape)
      else .done ((dst.addrs.zip s.addrs).foldl (fun m p => copyStep b m p.1 p.2) mem)

/-- `ascontiguousarray`, src/python/creation.rs:943-956, of an array of dtype `a` with target dtype `b`. -/
def ascontiguousarray (a b : DType) (h : Heap Elem) (x : Handle) : Option (Heap Elem × Handle) := do
  let m ← h.mems[x.buf]?
  if x.view.cFlag = true ∧ a = b then some (h, x)
  else some (h.alloc (astype a b ⟨m, x.view⟩) (DType.itemsize b) (zeroElem b))

/-- `asfortranarray`, src/python/creation.rs:963-974. -/
def asfortranarray (a b : DType) (h : Heap Elem) (x : Handle) : Option (Heap Elem × Handle) := do
  let m ← h.mems[x.buf]?
  let r := h.alloc (astype a b ⟨m, x.view.transpose⟩) (DType.itemsize b) (zeroElem b)
  some (r.1, ⟨r.2.buf, r.2.view.transpose⟩)

/-- Whether the array already satisfies the requirements, src/python/creation.rs:1006-1012. -/
def satisfies (a b : DType) (v : View) (reqs : List Char) : Bool :=
  if 'C' ∈ reqs then v.cFlag && decide (a = b)
  else if 'F' ∈ reqs then v.fFlag && decide (a = b)
  else decide (a = b)

/-- `require`, src/python/creation.rs:989-1025. -/
def require (a b : DType) (h : Heap Elem) (x : Handle) (reqs : List Char) : Option (Heap Elem × Handle) := do
  let m ← h.mems[x.buf]?
  if satisfies a b x.view reqs then some (h, x)
  else if 'F' ∈ reqs then asfortranarray a b h x
  else some (h.alloc (astype a b ⟨m, x.view⟩) (DType.itemsize b) (zeroElem b))

end Rumpy
