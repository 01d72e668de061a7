import Verif.Spec.Signal
import Verif.Spec.DType
import Verif.Model.Masked
import Verif.Model.Compare
import Verif.Model.Copy
import Verif.Model.SetOps
/-!
# Model: unwrap, trim_zeros, angle and real_if_close (src/python/misc.rs)

Floats are elements of an ordered field.
-/

namespace Rumpy
open Spec

/-! ### unwrap -/

/-- One step of the loop of `unwrap`, src/python/misc.rs:1147-1154: the cumulative correction after a difference. -/
def unwrapStep [Field K] [LinearOrder K] [FloorRing K] (period discont cum diff : K) : K :=
  if discont < |diff| then cum - ⌊(diff + period / 2) / period⌋ * period else cum

/-- The loop over a lane, src/python/misc.rs:1143-1159, from the second element on. -/
def unwrapLoop [Field K] [LinearOrder K] [FloorRing K] (period discont : K) : K → K → List K → List K
  | _, _, [] => []
  | prev, cum, c :: cs =>
    (c + unwrapStep period discont cum (c - prev)) ::
      unwrapLoop period discont c (unwrapStep period discont cum (c - prev)) cs

/-- One lane, src/python/misc.rs:1138-1160. `strides` are those of the new array, whose cells hold `data`. A cell is read just before
it is overwritten and not read again, so the lane is read first and stored afterwards. -/
def unwrapLane [Field K] [LinearOrder K] [FloorRing K] (period discont : K) (axisLen : Nat) (stride : Int) (data : List K) (base : Int) :
    List K :=
  let cell := fun (i : Nat) => ((base + (i : Int) * stride) / 8).toNat
  let vals := (List.range (axisLen - 1)).map fun i => data.getD (cell (i + 1)) 0
  writes ((unwrapLoop period discont (data.getD (cell 0) 0) 0 vals).zipIdx.map fun vi => (cell (vi.2 + 1), vi.1)) data

/-- `unwrap`, src/python/misc.rs:1096-1163, with the dtype of the result. `h` holds the elements as they are read, `twoPi` is
`2.0 * PI`, and `dt` the dtype of the argument. -/
def unwrap [Field K] [LinearOrder K] [FloorRing K] (twoPi : K) (dt : DType) (h : Held K) (discont : Option K) (axis : Int)
    (period : Option K) : Outcome (DType × Arr K) :=
  let shape := h.view.shape
  if shape.length = 0 then .ok (dt, ⟨shape, h.view.addrs.map h.mem⟩)
  else
    match resolveAxis axis shape.length with
    | none => .error
    | some ax =>
      let p := period.getD twoPi
      let d := discont.getD (p / 2)
      let n := shape.getD ax 0
      if n ≤ 1 then .ok (dt, copyArr (dt == .f64 || dt == .i64) h.mem h.view 0)
      else
        let strides := cStrides shape 8
        let src := writes ((collectValues id (dt == .f64) h.mem h.view).zipIdx.map fun vi => (vi.2, vi.1)) (List.replicate (sizeOf shape) 0)
        .ok (.f64, ⟨shape, (axisOffsetIter shape strides ax 0).toList.foldl (unwrapLane p d n (strides.getD ax 0)) src⟩)

/-! ### trim_zeros -/

/-- The elements as the typed branch reads them, src/python/misc.rs:246-262 and 268-284, and as the fallback does, 305-328. -/
def trimValues (typed : Bool) (h : Held α) : List α := collectValues id typed h.mem h.view

/-- `first` and `last`, src/python/misc.rs:243-286 and 308-331. -/
def trimBounds (nonzero : α → Bool) (trim : List Char) (vals : List α) : Nat × Nat :=
  let size := vals.length
  let first := if trim.contains 'f' || trim.contains 'F' then vals.findIdx nonzero else 0
  let last :=
    if trim.contains 'b' || trim.contains 'B' then
      match vals.reverse.findIdx? nonzero with
      | some j => size - j
      | none => first
    else size
  (first, last)

/-- `trim_zeros`, src/python/misc.rs:222-341. `typed` says that the dtype is one of lines 291-301, and `nonzero` is the test
applied to an element: on the other dtypes it is `read_f64(x) != 0`, and `read_f64` of a complex number is its real part. -/
def trimZerosArr (typed eight : Bool) (nonzero : α → Bool) (h : Held α) (trim : List Char) (zero : α) : Outcome (Arr α) :=
  if h.view.shape.length ≠ 1 then .error
  else if sizeOf h.view.shape = 0 then .ok ⟨h.view.shape, []⟩
  else
    let b := trimBounds nonzero trim (trimValues typed h)
    if b.2 ≤ b.1 then .ok ⟨[0], []⟩
    else
      match h.view.sliceAxis 0 b.1 b.2 1 with
      | none => .panic
      | some w => .ok (copyArr eight h.mem w zero)

/-! ### angle and real_if_close -/

/-- `angle` of complex elements, src/python/misc.rs:1183-1208; `atan2` is the function of the standard library, and `degrees` is
`to_degrees`. -/
def angleComplex (atan2 : K → K → K) (degrees : K → K) (h : Held (Cpx K)) (deg : Bool) : Arr K :=
  ⟨h.view.shape, (h.view.addrs.map h.mem).map fun z => if deg then degrees (atan2 z.im z.re) else atan2 z.im z.re⟩

/-- `angle` of other elements, src/python/misc.rs:1209-1224; no comparison holds of NaN, which is `none`. -/
def angleReal [Zero K] [LT K] [DecidableLT K] (pi : K) (degrees : K → K) (h : Held (Option K)) (deg : Bool) : Arr (Option K) :=
  ⟨h.view.shape, (h.view.addrs.map h.mem).map fun v =>
    let ang := if (match v with | some x => decide (x < 0) | none => false) then pi else 0
    some (if deg then degrees ang else ang)⟩

/-- The test of one imaginary part, src/python/misc.rs:1258-1264: `im.abs() > threshold`, never true of NaN. -/
def farFromReal [AddGroup K] [LinearOrder K] (threshold : K) : Option K → Bool
  | some im => decide (threshold < |im|)
  | none => false

/-- `real_if_close` of a complex array, src/python/misc.rs:1246-1297; `eps` is the machine epsilon. The result is the real parts,
or the argument itself. -/
def realIfClose [Field K] [LinearOrder K] (eps tol : K) (h : Held (Cpx (Option K))) :
    Arr (Option K) ⊕ Held (Cpx (Option K)) :=
  let vals := h.view.addrs.map h.mem
  if vals.any fun z => farFromReal (tol * eps) z.im then .inr h
  else .inl ⟨h.view.shape, vals.map fun z => z.re⟩

end Rumpy
