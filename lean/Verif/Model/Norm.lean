import Verif.Model.Linalg
import Verif.Model.Reduce
/-!
# Norms, condition number, rank, pseudo-inverse, least squares

Models src/ops/linalg.rs:143-291 and 463-736.
-/

namespace Rumpy
open Spec

variable {K : Type} [Field K] [LinearOrder K]

/-- `a.abs()`, src/ops/mod.rs:127-129, over `map_unary_op`. -/
def absArr (a : Held K) : Held K := Held.of (mapUnary (fun x => |x|) a.mem a.view 0) a.view.item 0

/-- `a.sum()`, src/ops/array_methods/reductions.rs:16-18. -/
def sumAll (a : Held K) : K := reduceAll (fun x y => x + y) 0 a.mem a.view

/-- `a.max()`, src/ops/array_methods/reductions.rs:42-44.  The accumulator starts at negative infinity, here `⊥`;
the result of an array with elements is never that, and is stated as a number. -/
def maxAll (a : Held K) : K :=
  (reduceAll (maxCombine fun x : WithBot K => x) ⊥ (fun p => ((a.mem p : K) : WithBot K)) a.view).unbotD 0

/-- `a.min()`, src/ops/array_methods/reductions.rs:52-54.  The accumulator starts at infinity, here `⊤`. -/
def minAll (a : Held K) : K :=
  (reduceAll (minCombine fun x : WithTop K => x) ⊤ (fun p => ((a.mem p : K) : WithTop K)) a.view).untopD 0

/-- `a.sum_axis(axis)`, src/ops/array_methods/reductions.rs:21-23. -/
def sumAxis (a : Held K) (axis : Nat) : Held K :=
  Held.of (reduceAxis (fun x y => x + y) 0 a.mem a.view axis 0) a.view.item 0

/-- `count_nonzero`, src/ops/array_methods/logical.rs:8-23. -/
def countNonzero (a : Held K) : Nat :=
  if sizeOf a.view.shape = 0 then 0
  else a.view.addrs.foldl (fun count p => if a.mem p ≠ 0 then count + 1 else count) 0

/-- An `ord` argument: a number or an infinity. -/
inductive NormOrd (K : Type) where
  | posInf
  | negInf
  | num (p : K)
deriving DecidableEq

/-- `vector_norm`, src/ops/linalg.rs:168-211.  `sqrt` and `powf` are those of `f64`. -/
def vectorNorm (sqrt : K → K) (powf : K → K → K) (a : Held K) (ord : Option (NormOrd K)) : Option K :=
  if sizeOf a.view.shape = 0 then some 0
  else match ord with
    | none => some (sqrt (sumOfSquares a.mem a.view))
    | some .posInf => some (maxAll (absArr a))
    | some .negInf => some (minAll (absArr a))
    | some (.num p) =>
      if p = 2 then some (sqrt (sumOfSquares a.mem a.view))
      else if p = 1 then some (sumAll (absArr a))
      else if p = 0 then some (countNonzero a)
      else
        let b := absArr a
        some (powf (b.view.addrs.foldl (fun sum o => sum + powf (b.mem o) p) 0) (1 / p))

/-- `matrix_norm`, src/ops/linalg.rs:218-291.  `singular` is the library's `singular_values`. -/
def matrixNorm (sqrt : K → K) (singular : Nat → Nat → (Nat → Nat → K) → List K) (f64 : Bool) (a : Held K) (ord : Option String) :
    Option K := do
  let mn ← matSize a.view
  if mn.1 = 0 ∨ mn.2 = 0 then some 0
  else
    let ord := ord.getD "fro"
    let sv := singular mn.1 mn.2 (faerMat f64 a mn.1 mn.2)
    if ord = "fro" then some (sqrt (sumOfSquares a.mem a.view))
    else if ord = "nuc" then some (sv.foldl (fun x y => x + y) 0)
    else if ord = "1" then some (maxAll (sumAxis (absArr a) 0))
    else if ord = "2" then some (if sv = [] then 0 else sv.getD 0 0)
    else if ord = "inf" then some (maxAll (sumAxis (absArr a) 1))
    else if ord = "-1" then some (minAll (sumAxis (absArr a) 0))
    else if ord = "-2" then some (if sv = [] then 0 else sv.getD (sv.length - 1) 0)
    else if ord = "-inf" then some (minAll (sumAxis (absArr a) 1))
    else none

/-- The `ord` of a 1-D `norm`, src/ops/linalg.rs:147-154; `parse` is Rust's `str::parse::<f64>`. -/
def normOrd1 (parse : String → Option (NormOrd K)) : Option String → Option (NormOrd K)
  | none => none
  | some s =>
    if s = "fro" ∨ s = "2" then some (.num 2)
    else if s = "1" then some (.num 1)
    else if s = "inf" then some .posInf
    else if s = "-inf" then some .negInf
    else parse s

/-- `norm`, src/ops/linalg.rs:143-163. -/
def normOf (sqrt : K → K) (powf : K → K → K) (parse : String → Option (NormOrd K))
    (singular : Nat → Nat → (Nat → Nat → K) → List K) (f64 : Bool) (a : Held K) (ord : Option String) : Option K :=
  match a.view.shape.length with
  | 1 => vectorNorm sqrt powf a (normOrd1 parse ord)
  | 2 => matrixNorm sqrt singular f64 a ord
  | _ => some (sqrt (sumOfSquares a.mem a.view))

/-- `cond`, src/ops/linalg.rs:463-498.  `⊤` is infinity. -/
def cond (singular : Nat → Nat → (Nat → Nat → K) → List K) (f64 : Bool) (a : Held K) (p : Option String) :
    Option (WithTop K) := do
  let mn ← matSize a.view
  let p := p.getD "2"
  if p = "2" ∨ p = "-2" then
    let sv := singular mn.1 mn.2 (faerMat f64 a mn.1 mn.2)
    if sv = [] then some ((0 : K) : WithTop K)
    else
      let smax := sv.getD 0 0
      let smin := sv.getD (sv.length - 1) 0
      if smin = 0 then some ⊤
      else if p = "-2" then some ((smin / smax : K) : WithTop K)
      else some ((smax / smin : K) : WithTop K)
  else none

/-- The counting loops of `matrix_rank` and `lstsq`, src/ops/linalg.rs:527-532 and 641-646. -/
def countAbove (tol : K) (s : List K) : Nat := s.foldl (fun r x => if x > tol then r + 1 else r) 0

/-- `matrix_rank`, src/ops/linalg.rs:502-535. -/
def matrixRank (eps : K) (singular : Nat → Nat → (Nat → Nat → K) → List K) (f64 : Bool) (a : Held K) (tol : Option K) :
    Option Nat := do
  let mn ← matSize a.view
  if mn.1 = 0 ∨ mn.2 = 0 then some 0
  else
    let sv := singular mn.1 mn.2 (faerMat f64 a mn.1 mn.2)
    if sv = [] then some 0
    else some (countAbove (tol.getD ((max mn.1 mn.2 : Nat) * eps * sv.getD 0 0)) sv)

/-- One entry of the pseudo-inverse, src/ops/linalg.rs:571-579. -/
def pinvEntry (d : Svd K) (cutoff : K) (i j : Nat) : K :=
  (List.range d.s.length).foldl (fun val l =>
    if |d.s.getD l 0| > cutoff then val + d.v i l * (1 / d.s.getD l 0) * d.u j l else val) 0

/-- `pinv`, src/ops/linalg.rs:539-588. -/
def pinv (eps : K) (thinSvd : Nat → Nat → (Nat → Nat → K) → Svd K) (f64 : Bool) (a : Held K) (rcond : Option K) :
    Option (Arr K) := do
  let mn ← matSize a.view
  if mn.1 = 0 ∨ mn.2 = 0 then some ⟨[mn.2, mn.1], []⟩
  else
    let d := thinSvd mn.1 mn.2 (faerMat f64 a mn.1 mn.2)
    let cutoff := rcond.getD (eps * (max mn.1 mn.2 : Nat)) * |d.s.getD 0 0|
    some (faerToRumpy mn.2 mn.1 (pinvEntry d cutoff))

/-- The columns of the right-hand side in `lstsq`, src/ops/linalg.rs:604-617: 1-D or not, and how many. -/
def lstsqCols (m : Nat) (b : View) : Option (Bool × Nat) :=
  match b.shape with
  | [k] => if k ≠ m then none else some (true, 1)
  | [k, c] => if k ≠ m then none else some (false, c)
  | _ => none

/-- An element of the right-hand side, src/ops/linalg.rs:664-668 and 718-722. -/
def rhsAt (b : Held K) (oneD : Bool) (i col : Nat) : K := b.mem (b.view.addr (if oneD then [i] else [i, col]))

/-- One element of the solution, src/ops/linalg.rs:661-694: `c = Uᵀ b`, divided by the singular values above
the cutoff, then `V c`. -/
def lstsqEntry (d : Svd K) (cutoff : K) (m : Nat) (bcol : Nat → K) (i : Nat) : K :=
  let c := fun l => (List.range m).foldl (fun acc j => acc + d.u j l * bcol j) 0
  let c := fun l => if |d.s.getD l 0| > cutoff then c l / d.s.getD l 0 else 0
  (List.range d.s.length).foldl (fun val j => val + d.v i j * c j) 0

/-- The result of `lstsq`. -/
structure Lstsq (K : Type) where
  x : Arr K
  residuals : Arr K
  rank : Nat
  s : Arr K

/-- The stores into the solution, src/ops/linalg.rs:658-701. -/
def lstsqX (oneD : Bool) (n cols : Nat) (entry : Nat → Nat → K) : Arr K :=
  ⟨if oneD then [n] else [n, cols], writes ((List.range cols).flatMap fun col => (List.range n).map fun i =>
    (if oneD then i else i * cols + col, entry col i)) (List.replicate (n * cols) 0)⟩

/-- The sum of squared residuals of a column, src/ops/linalg.rs:707-724; the solution is read back from its
array. -/
def residualOf (a b : Held K) (oneD : Bool) (m n cols : Nat) (x : Arr K) (col : Nat) : K :=
  (List.range m).foldl (fun sum i =>
    let ax := (List.range n).foldl (fun acc j =>
      acc + a.mem (a.view.addr [i, j]) * x.data.getD (if oneD then j else j * cols + col) 0) 0
    sum + (ax - rhsAt b oneD i col) ^ 2) 0

/-- `lstsq`, src/ops/linalg.rs:596-736. -/
def lstsq (eps : K) (thinSvd : Nat → Nat → (Nat → Nat → K) → Svd K) (f64 : Bool) (a b : Held K) (rcond : Option K) :
    Option (Lstsq K) := do
  let mn ← matSize a.view
  let bc ← lstsqCols mn.1 b.view
  if mn.1 = 0 ∨ mn.2 = 0 then
    some ⟨⟨if bc.1 then [mn.2] else [mn.2, bc.2], List.replicate (mn.2 * bc.2) 0⟩, ⟨[0], []⟩, 0, ⟨[0], []⟩⟩
  else
    let d := thinSvd mn.1 mn.2 (faerMat f64 a mn.1 mn.2)
    let rc := rcond.getD (-1)
    let rc := if rc < 0 then eps * (max mn.1 mn.2 : Nat) else rc
    let cutoff := rc * |d.s.getD 0 0|
    let rank := countAbove cutoff (d.s.map fun x => |x|)
    let s := faerColToRumpy d.s.length fun i => d.s.getD i 0
    let x := lstsqX bc.1 mn.2 bc.2 fun col i => lstsqEntry d cutoff mn.1 (fun r => rhsAt b bc.1 r col) i
    let res := if mn.1 > mn.2 ∧ rank = mn.2 then
        faerColToRumpy bc.2 (residualOf a b bc.1 mn.1 mn.2 bc.2 x)
      else ⟨[0], []⟩
    some ⟨x, res, rank, s⟩

end Rumpy
