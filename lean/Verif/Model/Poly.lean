import Mathlib.Data.Nat.Log
import Mathlib.Algebra.Order.Field.Basic
import Mathlib.Data.List.Sort
import Verif.Model.Copy
import Verif.Model.Fft
import Verif.Model.Rearrange
/-!
# Model: convolution, correlation and polynomials

`convolve` of src/array/manipulation.rs, `correlate` of src/ops/numerical.rs and src/ops/poly.rs.  Elements
are already read as float64 and are elements of a field `K`; rounding is not modelled.  `usize` is `Nat`.
-/

namespace Rumpy
open Spec

/-- `array_to_vec`, src/ops/poly.rs:10-24, `read_to_f64_vec`, src/ops/numerical.rs:481-507, and the collecting
loops of `convolve`, src/array/manipulation.rs:813-829. -/
def toVec (h : Held K) : List K := if sizeOf h.view.shape = 0 then [] else h.view.addrs.map h.mem

/-- `convolve_direct`, src/array/manipulation.rs:865-874 and src/ops/numerical.rs:444-453.  `none` is a panic of
`a[k - j]` or `v[j]`. -/
def convolveDirect [Semiring K] (a v : List K) : Option (List K) :=
  let n := a.length
  let m := v.length
  (List.range (n + m - 1)).mapM fun k =>
    let lo := k - (n - 1)
    ((List.range' lo (min m (k + 1) - lo)).mapM fun j => (a[k - j]?).bind fun x => (v[j]?).map fun y => x * y).map
      List.sum

/-- `resize` of a vector to a length that is not smaller. -/
def padTo (zero : K) (l : List K) (n : Nat) : List K := (l ++ List.replicate (n - l.length) zero).take n

/-- `convolve_fft`, src/array/manipulation.rs:877-896 and src/ops/numerical.rs:455-476. -/
def convolveFft [Field K] (P : Planner K) (a v : List K) : List K :=
  let outLen := a.length + v.length - 1
  let fftLen := 2 ^ Nat.clog 2 outLen
  let ac := P.fwd fftLen (padTo 0 a fftLen)
  let vc := P.fwd fftLen (padTo 0 v fftLen)
  let prod := List.zipWith (· * ·) ac vc
  ((P.inv fftLen prod).take outLen).map fun c => P.re c / (fftLen : K)

/-- The choice of the algorithm, src/array/manipulation.rs:835-841 and src/ops/numerical.rs:420-424. -/
def convolveFull [Field K] (P : Planner K) (a v : List K) : Option (List K) :=
  if a.length * v.length > 500000 then some (convolveFft P a v) else convolveDirect a v

/-- The window of a mode, src/array/manipulation.rs:843-850 and src/ops/numerical.rs:426-431: (length,
start).  `none`: unknown mode. -/
def convWindow (mode : String) (n m : Nat) : Option (Nat × Nat) :=
  if mode = "full" then some (n + m - 1, 0)
  else if mode = "same" then some (n, (m - 1) / 2)
  else if mode = "valid" then some (max (n - (m - 1)) 1, m - 1)
  else none

/-- Copying the window, src/array/manipulation.rs:852-861 and src/ops/numerical.rs:433-441; `none` is the panic
of `full_result[start + i]`. -/
def takeWindow (full : List K) (w : Nat × Nat) : Option (Arr K) :=
  ((List.range w.1).mapM fun i => full[w.2 + i]?).map fun d => ⟨[w.1], d⟩

/-- The part of `convolve` and `correlate` after the operands are read.  The algorithm runs before the mode is
looked at; that does not matter, because it has no effects. -/
def convolveVals [Field K] (P : Planner K) (a v : List K) (mode : String) : Outcome (Arr K) :=
  match convolveFull P a v with
  | none => .panic
  | some full =>
    match convWindow mode a.length v.length with
    | none => .error
    | some w => match takeWindow full w with | none => .panic | some r => .ok r

/-- Results for empty operands, src/array/manipulation.rs:803-811.  With two empty operands `n + m - 1` underflows
(a panic, or an allocation that fails).  With `m = 0` the release build wraps `m - 1` around, so the
saturating subtraction gives 0. -/
def convolveEmpty [Zero K] (n m : Nat) (mode : String) : Outcome (Arr K) :=
  if mode = "full" then if n + m = 0 then .panic else .ok ⟨[n + m - 1], List.replicate (n + m - 1) 0⟩
  else if mode = "same" then .ok ⟨[n], List.replicate n 0⟩
  else if mode = "valid" then
    if m = 0 then .ok ⟨[0], []⟩ else .ok ⟨[n - (m - 1)], List.replicate (n - (m - 1)) 0⟩
  else .error

/-- `convolve`, src/array/manipulation.rs:794-862. -/
def convolve [Field K] (P : Planner K) (a v : Held K) (mode : String) : Outcome (Arr K) :=
  if a.view.shape.length ≠ 1 ∨ v.view.shape.length ≠ 1 then .error
  else if sizeOf a.view.shape = 0 ∨ sizeOf v.view.shape = 0 then
    convolveEmpty (sizeOf a.view.shape) (sizeOf v.view.shape) mode
  else convolveVals P (toVec a) (toVec v) mode

/-- Results for empty operands, src/ops/numerical.rs:406-414. -/
def correlateEmpty [Zero K] (n m : Nat) (mode : String) : Outcome (Arr K) :=
  if mode = "full" then .ok ⟨[n + m - 1], List.replicate (n + m - 1) 0⟩
  else if mode = "same" then .ok ⟨[n], List.replicate n 0⟩
  else if mode = "valid" then .ok ⟨[n - (m - 1)], List.replicate (n - (m - 1)) 0⟩
  else .error

/-- `correlate`, src/ops/numerical.rs:400-442. -/
def correlate [Field K] (P : Planner K) (a v : Held K) (mode : String) : Outcome (Arr K) :=
  if a.view.shape.length ≠ 1 ∨ v.view.shape.length ≠ 1 then .error
  else if sizeOf a.view.shape = 0 ∨ sizeOf v.view.shape = 0 then
    correlateEmpty (sizeOf a.view.shape) (sizeOf v.view.shape) mode
  else convolveVals P (toVec a) (toVec v).reverse mode

/-! ### Polynomials -/

/-- `from_vec` and `reshape`, src/ops/poly.rs:56-57. -/
def reshaped (data : List K) (shape : List Nat) : Arr K :=
  match (View.fresh [data.length] 8).reshape shape with
  | some w => ⟨w.shape, data⟩
  | none => ⟨[data.length], data⟩

/-- `polyval`, src/ops/poly.rs:30-58. -/
def polyval [Semiring K] (p x : Held K) : Arr K :=
  match toVec p with
  | [] => ⟨x.view.shape, List.replicate (sizeOf x.view.shape) 0⟩
  | c0 :: cs => reshaped (x.view.addrs.map fun off => cs.foldl (fun acc c => acc * x.mem off + c) c0) x.view.shape

/-- One round of the loop of `polyder`, src/ops/poly.rs:64-88. -/
def polyderStep [Semiring K] (coeffs : List K) : List K :=
  (coeffs.take (coeffs.length - 1)).zipIdx.map fun ci => ci.1 * ((coeffs.length - 1 - ci.2 : Nat) : K)

/-- The loop of `polyder`, with its early return, src/ops/poly.rs:71-86. -/
def polyderLoop [Semiring K] : Nat → List K → List K
  | 0, coeffs => coeffs
  | m + 1, coeffs => if coeffs.length ≤ 1 then [] else polyderLoop m (polyderStep coeffs)

/-- `polyder`, src/ops/poly.rs:64-88.  For `m = 0` it is a copy of `p` (C57), whatever its rank. -/
def polyder [Semiring K] (p : Held K) (m : Nat) : Arr K :=
  if m = 0 then copyArr true p.mem p.view 0
  else let d := polyderLoop m (toVec p); ⟨[d.length], d⟩

/-- One round of the loop of `polyint`, src/ops/poly.rs:94-117. -/
def polyintStep [Field K] (coeffs : List K) (constant : K) : List K :=
  coeffs.zipIdx.map (fun cj => cj.1 / ((coeffs.length - cj.2 : Nat) : K)) ++ [constant]

/-- `polyint`, src/ops/poly.rs:94-117. -/
def polyint [Field K] (p : Held K) (m : Nat) (k : Option (Held K)) : Arr K :=
  if m = 0 then copyArr true p.mem p.view 0
  else
    let kValues := (k.map toVec).getD []
    let d := (List.range m).foldl (fun coeffs i => polyintStep coeffs (kValues.getD (m - 1 - i) 0)) (toVec p)
    ⟨[d.length], d⟩

/-! ### Roots -/

/-- Removing leading coefficients below `eps = 1e-15`, src/ops/poly.rs:217-220. -/
def stripLeading [AddGroup K] [LinearOrder K] (eps : K) : List K → List K
  | [] => []
  | c :: cs => if |c| < eps then stripLeading eps cs else c :: cs

/-- `roots`, src/ops/poly.rs:214-268.  `sqrt` is the float square root, `companion` stands for
`roots_via_companion` (an iteration with faer's QR decomposition, not modelled). -/
def roots [Field K] [LinearOrder K] (eps : K) (sqrt : K → K) (companion : List K → Option (List K)) (p : Held K) :
    Option (List K) :=
  match stripLeading eps (toVec p) with
  | [] => some []
  | [_] => some []
  | [lead, c1] => some [-(c1 / lead)]
  | [lead, c1, c2] =>
    let b := c1 / lead
    let c := c2 / lead
    let disc := b * b - 4 * c
    if 0 ≤ disc then
      let s := sqrt disc
      some ([(-b + s) / 2, (-b - s) / 2].insertionSort fun x y => |y| ≤ |x|)
    else some []
  | lead :: cs => companion ((lead :: cs).map (· / lead))

/-! ### polyfit -/

/-- One row of the Vandermonde matrix, src/ops/poly.rs:140-150: the powers of `x`, from `x^deg` down to 1. -/
def vanderRow [Semiring K] (x : K) (deg : Nat) : List K :=
  ((List.range deg).foldl (fun (st : List K × K) _ => ((st.2 * x) :: st.1, st.2 * x)) ([1], 1)).1

/-- Back substitution, src/ops/poly.rs:190-205: `coeffs` for rows `i ..` are known, row `i - 1` is next.  `r` and
`qty` are matrices (`get_element`). -/
def backSub [Field K] [LinearOrder K] (eps : K) (r : Nat → Nat → K) (qty : Nat → K) (cols : Nat) : Nat → List K → List K
  | 0, coeffs => coeffs
  | i + 1, coeffs =>
    let sum := (List.range' (i + 1) (cols - (i + 1))).foldl (fun s j => s - r i j * coeffs.getD (j - (i + 1)) 0) (qty i)
    backSub eps r qty cols i ((if |r i i| < eps then 0 else sum / r i i) :: coeffs)

/-- Applying the weights, src/ops/poly.rs:158-182: the rows of the matrix and the right-hand side times the square
roots of the weights. -/
def weighted [Mul K] (sqrt : K → K) (vander : List (List K)) (ys : List K) (w : Option (Held K)) :
    Option (List (List K) × List K) :=
  match w with
  | none => some (vander, ys)
  | some wa =>
    let ws := toVec wa
    if ws.length ≠ ys.length then none
    else some (List.zipWith (fun row wv => row.map fun e => e * sqrt wv) vander ws,
      List.zipWith (fun yv wv => yv * sqrt wv) ys ws)

/-- `polyfit`, src/ops/poly.rs:127-208.  A matrix is a list of rows; `qr` is faer's decomposition (q, r), and
`qᵀ y` is the product of src/ops/matmul.rs (C42), written out as a sum. -/
def polyfit [Field K] [LinearOrder K] (eps : K) (sqrt : K → K) (qr : List (List K) → Option ((Nat → Nat → K) × (Nat → Nat → K)))
    (x y : Held K) (deg : Nat) (w : Option (Held K)) : Option (Arr K) :=
  let xs := toVec x
  let ys := toVec y
  let n := xs.length
  if n = 0 ∨ n ≠ ys.length ∨ deg ≥ n then none
  else
    let vander := xs.map fun xv => vanderRow xv deg
    (weighted sqrt vander ys w).bind fun vy => (qr vy.1).map fun d =>
      let qty := fun j => ((List.range n).map fun i => d.1 i j * vy.2.getD i 0).sum
      let c := backSub eps d.2 qty (deg + 1) (deg + 1) []
      ⟨[c.length], c⟩

end Rumpy
