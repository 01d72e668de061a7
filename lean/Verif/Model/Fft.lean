import Verif.Model.Array
import Verif.Model.Search
import Mathlib.Algebra.Field.Basic
/-!
# Model: Fourier transforms (src/ops/fft.rs)

Complex numbers are elements of a field `K`; rounding is not modelled.  `rustfft` is third-party: a
plan is a function on lists, `fwd n` and `inv n` for the two directions (`Planner`).  `conj` and `re`
are complex conjugation and the real part (read as an element of `K`).  `Arr` is a new array.
-/

namespace Rumpy
open Spec

/-- What the code uses of `rustfft`, and of complex numbers beyond field operations. -/
structure Planner (K : Type u) where
  fwd : Nat → List K → List K
  inv : Nat → List K → List K
  conj : K → K
  re : K → K

/-- `compute_strides`, src/ops/fft.rs:7-14; the reverse loop handles the tail first. -/
def elemStrides : List Nat → List Nat
  | [] => []
  | [_] => [1]
  | _ :: n :: s => ((elemStrides (n :: s)).headD 1 * n) :: elemStrides (n :: s)

/-- `to_complex_buffer`, src/ops/fft.rs:18-54.  `wide`: the dtype is float64 or complex128. -/
def toComplexBuffer (wide : Bool) (mem : Int → K) (v : View) : List K :=
  if v.cFlag && wide then (List.range (sizeOf v.shape)).map fun i : Nat => mem (v.offset + (i : Int) * v.item)
  else v.addrs.map mem

/-- `index_from_transform_idx`, src/ops/fft.rs:385-395: (index, remaining) after the reverse loop. -/
def indexFromTransform (t : Nat) (shape strides : List Nat) : Nat :=
  ((shape.zip strides).reverse.foldl (fun st p =>
    if p.1 > 0 then (st.1 + (st.2 % p.1) * p.2, st.2 / p.1) else st) (0, t)).1

/-- Reading one lane into `work_buffer`, src/ops/fft.rs:374-376. -/
def readLane (zero : K) (buf : List K) (base stride n : Nat) : List K :=
  (List.range n).map fun i => buf.getD (base + i * stride) zero

/-- Writing one lane, src/ops/fft.rs:378-380. -/
def writeLane (zero : K) (work : List K) (base stride n : Nat) (buf : List K) : List K :=
  writes ((List.range n).map fun i => (base + i * stride, work.getD i zero)) buf

/-- `fft_along_axis`, src/ops/fft.rs:337-382. `filter(|i| i != axis)` is `eraseIdx`. -/
def fftAlongAxis (zero : K) (plan : List K → List K) (shape : List Nat) (axis : Nat) (buffer : List K) : List K :=
  let n := shape.getD axis 0
  let strides := elemStrides shape
  let others := shape.eraseIdx axis
  let nTransforms := sizeOf others
  if nTransforms = 0 ∨ n = 0 then buffer
  else (List.range nTransforms).foldl (fun buf t =>
    let base := indexFromTransform t others (strides.eraseIdx axis)
    writeLane zero (plan (readLane zero buf base (strides.getD axis 0) n)) base (strides.getD axis 0) n buf) buffer

/-- The loop over axes, src/ops/fft.rs:290-296 and 314-320. -/
def fftAxes (zero : K) (plan : Nat → List K → List K) (shape : List Nat) (axes : List Nat) (buffer : List K) : List K :=
  axes.foldl (fun buf axis =>
    let n := shape.getD axis 0
    if n > 0 then fftAlongAxis zero (plan n) shape axis buf else buf) buffer

/-- `validate_axes`, src/ops/fft.rs:439-448. -/
def validateAxes (axes : Option (List Nat)) (ndim : Nat) : Option (List Nat) :=
  let use := axes.getD (List.range ndim)
  if use = [] ∨ use.any (fun a => decide (a ≥ ndim)) then none else some use

/-- `fftn`, src/ops/fft.rs:280-301. -/
def fftn [Field K] (P : Planner K) (wide : Bool) (mem : Int → K) (v : View) (axes : Option (List Nat)) : Option (Arr K) :=
  if v.shape.length = 0 then none
  else do
    let use ← validateAxes axes v.shape.length
    return ⟨v.shape, fftAxes 0 P.fwd v.shape use (toComplexBuffer wide mem v)⟩

/-- `ifftn`, src/ops/fft.rs:304-334. -/
def ifftn [Field K] (P : Planner K) (wide : Bool) (mem : Int → K) (v : View) (axes : Option (List Nat)) : Option (Arr K) :=
  if v.shape.length = 0 then none
  else do
    let use ← validateAxes axes v.shape.length
    let buf := fftAxes 0 P.inv v.shape use (toComplexBuffer wide mem v)
    let total := (use.map fun ax => v.shape.getD ax 0).prod
    return ⟨v.shape, if total > 0 then buf.map (· * (1 / (total : K))) else buf⟩

/-- `fft`, src/ops/fft.rs:73-89. -/
def fft1 [Field K] (P : Planner K) (wide : Bool) (mem : Int → K) (v : View) : Option (Arr K) :=
  if v.shape.length ≠ 1 then none
  else if sizeOf v.shape = 0 then some ⟨[0], []⟩
  else some ⟨[sizeOf v.shape], P.fwd (sizeOf v.shape) (toComplexBuffer wide mem v)⟩

/-- `ifft`, src/ops/fft.rs:92-114. -/
def ifft1 [Field K] (P : Planner K) (wide : Bool) (mem : Int → K) (v : View) : Option (Arr K) :=
  if v.shape.length ≠ 1 then none
  else if sizeOf v.shape = 0 then some ⟨[0], []⟩
  else some ⟨[sizeOf v.shape],
    (P.inv (sizeOf v.shape) (toComplexBuffer wide mem v)).map (· * (1 / (sizeOf v.shape : K)))⟩

/-- `rfft`, src/ops/fft.rs:133-150. -/
def rfft1 [Field K] (P : Planner K) (wide : Bool) (mem : Int → K) (v : View) : Option (Arr K) :=
  if v.shape.length ≠ 1 then none
  else
    let n := sizeOf v.shape
    if n = 0 then some ⟨[0], []⟩
    else some ⟨[n / 2 + 1], (P.fwd n (toComplexBuffer wide mem v)).take (n / 2 + 1)⟩

/-- `for i in 1..last { buffer[n - i] = f(i) }`, src/ops/fft.rs:171-173. -/
def mirror (f : Nat → K) (n last : Nat) (buf : List K) : List K :=
  writes ((List.range (last - 1)).map fun k => (n - (k + 1), f (k + 1))) buf

/-- `irfft`, src/ops/fft.rs:153-191.  One frequency: `buffer` is empty and `buffer[0]` panics. -/
def irfft1 [Field K] (P : Planner K) (wide : Bool) (mem : Int → K) (v : View) : Outcome (Arr K) :=
  if v.shape.length ≠ 1 then .error
  else
    let nFreq := sizeOf v.shape
    if nFreq = 0 then .ok ⟨[0], []⟩
    else
      let n := 2 * (nFreq - 1)
      let input := toComplexBuffer wide mem v
      if n < nFreq then .panic
      else
        let buf := writes (input.zipIdx.map fun x => (x.2, x.1)) (List.replicate n 0)
        let buf := mirror (fun i => P.conj (input.getD i 0)) n (nFreq - 1) buf
        .ok ⟨[n], (P.inv n buf).map fun c => P.re c * (1 / (n : K))⟩

/-- `rfft_along_axis`, src/ops/fft.rs:451-504. With an empty other axis the loop still runs once and
indexes the empty buffer unless the axis is empty too; `none` is that panic. -/
def rfftAlongAxis (zero : K) (plan : List K → List K) (inShape outShape : List Nat) (axis : Nat) (buffer : List K) :
    Option (List K) :=
  let is := elemStrides inShape
  let os := elemStrides outShape
  let others := inShape.eraseIdx axis
  if sizeOf others = 0 ∧ inShape.getD axis 0 > 0 then none
  else some ((List.range (max (sizeOf others) 1)).foldl (fun out t =>
    let ib := indexFromTransform t others (is.eraseIdx axis)
    let ob := indexFromTransform t others (os.eraseIdx axis)
    writeLane zero (plan (readLane zero buffer ib (is.getD axis 0) (inShape.getD axis 0))) ob (os.getD axis 0)
      (outShape.getD axis 0) out) (List.replicate (sizeOf outShape) zero))

/-- `rfftn`, src/ops/fft.rs:403-436. An empty last axis panics at `work_buffer[0]` (src/ops/fft.rs:499). -/
def rfftn [Field K] (P : Planner K) (wide : Bool) (mem : Int → K) (v : View) (axes : Option (List Nat)) : Outcome (Arr K) :=
  if v.shape.length = 0 then .error
  else match validateAxes axes v.shape.length with
  | none => .error
  | some use =>
    let last := use.getLastD 0
    let n := v.shape.getD last 0
    if n = 0 then .panic
    else
      let shape := v.shape.set last (n / 2 + 1)
      match rfftAlongAxis 0 (P.fwd n) v.shape shape last (toComplexBuffer wide mem v) with
      | none => .panic
      | some buf => .ok ⟨shape, fftAxes 0 P.fwd shape use.dropLast.reverse buf⟩

/-- One lane of `irfftn`: the work buffer before the inverse transform, src/ops/fft.rs:582-594. -/
def hermitian (conj : K → K) (zero : K) (xs : List K) (nFreq outLen : Nat) : List K :=
  writes (((List.range (nFreq - 1 - 1)).filter fun k => decide (outLen > k + 1)).map fun k =>
      (outLen - (k + 1), conj (xs.getD (k + 1) zero)))
    ((List.range outLen).map fun i => if i < nFreq then xs.getD i zero else zero)

/-- `irfftn`, src/ops/fft.rs:512-622.  Panics: `n_freq - 1` for no frequency (src/ops/fft.rs:527, 590), more
frequencies than output positions (src/ops/fft.rs:583), reading an empty buffer. -/
def irfftn [Field K] (P : Planner K) (wide : Bool) (mem : Int → K) (v : View) (hint : Option (List Nat))
    (axes : Option (List Nat)) : Outcome (Arr K) :=
  if v.shape.length = 0 then .error
  else match validateAxes axes v.shape.length with
  | none => .error
  | some use =>
    let last := use.getLastD 0
    let nFreq := v.shape.getD last 0
    if nFreq = 0 then .panic
    else
      let outLen := match hint with
        | some s => if last < s.length then s.getD last 0 else 2 * (nFreq - 1)
        | none => 2 * (nFreq - 1)
      let buf := fftAxes 0 P.inv v.shape use.dropLast (toComplexBuffer wide mem v)
      let outShape := v.shape.set last outLen
      if outLen < nFreq then .panic
      else
        let lane := fun xs => P.inv outLen (hermitian P.conj 0 xs nFreq outLen)
        match rfftAlongAxis 0 lane v.shape outShape last buf with
        | none => .panic
        | some out =>
          let total := (use.map fun ax => if ax = last then outLen else v.shape.getD ax 0).prod
          .ok ⟨outShape, out.map fun c => P.re c * (1 / (total : K))⟩

/-- `hfft`, src/ops/fft.rs:644-706. -/
def hfft1 [Field K] (P : Planner K) (wide : Bool) (mem : Int → K) (v : View) (n : Option Nat) : Option (Arr K) :=
  if v.shape.length ≠ 1 then none
  else
    let nFreq := sizeOf v.shape
    if nFreq = 0 then some ⟨[0], []⟩
    else
      let outLen := n.getD (2 * (nFreq - 1))
      if outLen = 0 then some ⟨[0], []⟩
      else
        let input := toComplexBuffer wide mem v
        let paddedLen := outLen / 2 + 1
        let padded := writes ((input.zipIdx.take paddedLen).map fun x => (x.2, P.conj x.1)) (List.replicate paddedLen 0)
        let buf := writes (padded.zipIdx.map fun x => (x.2, x.1)) (List.replicate outLen 0)
        let buf := writes ((List.range (min paddedLen outLen - 1 - 1)).flatMap fun k =>
          if outLen > k + 1 ∧ k + 1 < input.length then [(outLen - (k + 1), input.getD (k + 1) 0)]
          else if outLen > k + 1 then [(outLen - (k + 1), 0)] else []) buf
        some ⟨[outLen], (P.inv outLen buf).map P.re⟩

/-- `ihfft`, src/ops/fft.rs:711-736. -/
def ihfft1 [Field K] (P : Planner K) (wide : Bool) (mem : Int → K) (v : View) : Option (Arr K) :=
  if v.shape.length ≠ 1 then none
  else
    let n := sizeOf v.shape
    if n = 0 then some ⟨[0], []⟩
    else some ⟨[n / 2 + 1], ((P.fwd n (toComplexBuffer wide mem v)).map fun c => P.conj c * (1 / (n : K))).take (n / 2 + 1)⟩

/-! ### Shifts and frequencies -/

/-- `shift_array`, src/ops/fft.rs:194-220. -/
def shiftArray (mem : Int → α) (v : View) (shifts : List Nat) (zero : α) : Arr α :=
  ⟨v.shape, writes ((odometerAll v.shape).zipIdx.map fun io =>
    (io.2, mem (v.addr (((io.1.zip shifts).zip v.shape).map fun p => (p.1.1 + p.2 - p.1.2) % p.2))))
    (List.replicate (sizeOf v.shape) zero)⟩

/-- `fftshift`, src/ops/fft.rs:223-230. -/
def fftshift (mem : Int → α) (v : View) (zero : α) : Option (Arr α) :=
  if v.shape.length = 0 ∨ v.shape.length > 2 then none
  else some (shiftArray mem v (v.shape.map (· / 2)) zero)

/-- `ifftshift`, src/ops/fft.rs:233-240. -/
def ifftshift (mem : Int → α) (v : View) (zero : α) : Option (Arr α) :=
  if v.shape.length = 0 ∨ v.shape.length > 2 then none
  else some (shiftArray mem v (v.shape.map fun n => (n + 1) / 2) zero)

/-- `fftfreq`, src/ops/fft.rs:243-260. -/
def fftfreq [Field K] (n : Nat) (d : K) : List K :=
  let val := 1 / ((n : K) * d)
  let mid := (n + 1) / 2
  (List.range n).map fun i => if i < mid then (i : K) * val else (((i : Int) - (n : Int) : Int) : K) * val

/-- `rfftfreq`, src/ops/fft.rs:263-276. -/
def rfftfreq [Field K] (n : Nat) (d : K) : List K :=
  (List.range (n / 2 + 1)).map fun i : Nat => (i : K) * (1 / ((n : K) * d))

end Rumpy
