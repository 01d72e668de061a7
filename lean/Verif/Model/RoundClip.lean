import Verif.Spec.RoundClip
import Verif.Model.NestedList
import Verif.Model.Elementwise

/-!
# Model: `round` and `clip`

Floats are exact: the rounding of `v * scale` and of the quotient is left out, and so are NaN and
the infinities.  `float16`, which `round` reads through `f64`, is left out.
-/

namespace Rumpy
open Spec

/-- The loop of `dispatch_clip_typed`, `impl_round_float` and `impl_round_int`,
src/ops/dispatch.rs:1485-1522, 1565-1577 and 1602-1614: a slice when the array is contiguous,
`iter_offsets` otherwise. -/
def mapLoop (f : α → γ) (mem : Int → α) (v : View) (zero : γ) : Arr γ :=
  let size := sizeOf v.shape
  let blank := List.replicate size zero
  if size = 0 then ⟨v.shape, blank⟩
  else if v.cFlag then
    ⟨v.shape, writes (simpleStores 0 size fun i => f (mem (v.offset + i * v.item))) blank⟩
  else ⟨v.shape, writes (v.addrs.zipIdx.map fun oi => (oi.2, f (mem oi.1))) blank⟩

/-- Rust's `f64::round` (by contract): to the nearest integer, halves away from zero. -/
def roundAway (x : Rat) : Int := if 0 ≤ x then ⌊x + 1 / 2⌋ else ⌈x - 1 / 2⌉

/-- `(v * scale).round() / scale` with `scale = 10.powi(decimals)`, src/ops/dispatch.rs:1569 and
src/ops/mod.rs:266. -/
def roundTo (d : Int) (x : Rat) : Rat := roundAway (x * 10 ^ d) / 10 ^ d

/-- The typed read of an integer. -/
def loadInt : PyNum → Int
  | .int i => i
  | _ => 0

/-- `scale = 10i64.pow((-decimals) as u32) as T`, src/ops/dispatch.rs:1596; both steps keep the low
bits (with overflow checks the power panics instead, from `10^19` on). -/
def roundScale (signed : Bool) (bits : Nat) (d : Int) : Int := wrapInt signed bits (10 ^ (-d).toNat)

/-- `(v / scale) * scale`, src/ops/dispatch.rs:1606. -/
def truncTo (scale v : Int) : Int := v.tdiv scale * scale

/-- `round`, src/ops/mod.rs:243-271, with `dispatch_round`, src/ops/dispatch.rs:1526-1548,
`impl_round_float` 1551-1582 and `impl_round_int` 1588-1619.  The left result is a clone, which is
the same memory; `none` is the panic of a division by zero. -/
def roundOf (kind : NumKind) (d : Int) (h : Held PyNum) : Option (Held PyNum ⊕ Arr PyNum) :=
  match kind with
  | .float => some (.inr (mapLoop (fun x => .float (roundTo d (loadF64 x))) h.mem h.view (.float 0)))
  | .int signed bits =>
    if signed ∧ bits = 8 then
      some (.inr (mapUnaryFallback (fun x => storeF64 (.int signed bits) (roundTo d (loadF64 x))) h.mem h.view (.int 0)))
    else if 0 ≤ d then some (.inl h)
    else if Rumpy.sizeOf h.view.shape ≠ 0 ∧ roundScale signed bits d = 0 then none
    else some (.inr (mapLoop (fun x => .int (truncTo (roundScale signed bits d) (loadInt x))) h.mem h.view (.int 0)))
  | .bool => some (.inr (mapUnaryFallback (fun x => storeF64 .bool (roundTo d (loadF64 x))) h.mem h.view (.bool false)))
  | .complex => some (.inr (mapUnaryFallback (fun x => storeF64 .complex (roundTo d (loadF64 x))) h.mem h.view (.complex 0 0)))

/-- A bound that Python passes as `Option<f64>`; `none` is the exception. -/
def boundOf : Option PyNum → Option (Option Rat)
  | none => some none
  | some x => (extractF64 x).map some

/-- `clip`, src/ops/mod.rs:204-240, with `dispatch_clip`, src/ops/dispatch.rs:1465-1479 (the bounds
are cast to the dtype). -/
def clipWith (kind : NumKind) (lo hi : Option Rat) (h : Held PyNum) : Arr PyNum :=
  match kind with
  | .float => mapLoop (fun x => .float (clipValue lo hi (loadF64 x))) h.mem h.view (.float 0)
  | .int signed bits =>
    if signed ∧ bits = 8 then
      mapUnaryFallback (fun x => storeF64 (.int signed bits) (clipValue lo hi (loadF64 x))) h.mem h.view (.int 0)
    else
      mapLoop (fun x => .int (clipValue (lo.map (saturateInt signed bits)) (hi.map (saturateInt signed bits)) (loadInt x)))
        h.mem h.view (.int 0)
  | .bool => mapUnaryFallback (fun x => storeF64 .bool (clipValue lo hi (loadF64 x))) h.mem h.view (.bool false)
  | .complex => mapUnaryFallback (fun x => storeF64 .complex (clipValue lo hi (loadF64 x))) h.mem h.view (.complex 0 0)

/-- `clip` as called from Python, src/python/pyarray/mod.rs:437-439. -/
def clipOf (kind : NumKind) (lo hi : Option PyNum) (h : Held PyNum) : Option (Arr PyNum) :=
  (boundOf lo).bind fun lo => (boundOf hi).map fun hi => clipWith kind lo hi h

end Rumpy
